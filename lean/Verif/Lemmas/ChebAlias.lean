import Verif.Lemmas.SeriesError

/-!
# The interpolant of a Chebyshev series at the Chebyshev nodes

At the nodes `-cos (i π / N)` every Chebyshev polynomial agrees with one of degree at most `N`.  So the interpolant of a sum of Chebyshev
polynomials is known in closed form, and its distance from the sum is at most twice the coefficients beyond `N`.
-/

namespace Verif

open Polynomial Polynomial.Chebyshev

/-- The degree at most `N` whose Chebyshev polynomial agrees with that of degree `k` at the nodes. -/
def aliasIdx (N k : ℕ) : ℕ := if k % (2 * N) ≤ N then k % (2 * N) else 2 * N - k % (2 * N)

theorem aliasIdx_le (N k : ℕ) : aliasIdx N k ≤ N := by
  unfold aliasIdx
  split_ifs <;> omega

theorem aliasIdx_of_le {N k : ℕ} (hk : k ≤ N) : aliasIdx N k = k := by
  unfold aliasIdx
  rcases Nat.eq_zero_or_pos k with rfl | h
  · simp
  · rw [Nat.mod_eq_of_lt (by omega), if_pos hk]

theorem T_alias (N k i : ℕ) (hN : 1 ≤ N) : (T ℝ k).eval (cnode N i) = (T ℝ (aliasIdx N k)).eval (cnode N i) := by
  have hN0 : (N : ℝ) ≠ 0 := by positivity
  have key : ∀ r m : ℕ, Real.cos (((2 * N * m + r : ℕ) : ℝ) * (Real.pi - i * Real.pi / N)) = Real.cos ((r : ℝ) * (Real.pi - i * Real.pi / N)) := by
    intro r m
    rw [← Real.cos_add_int_mul_two_pi ((r : ℝ) * (Real.pi - i * Real.pi / N)) ((m : ℤ) * ((N : ℤ) - i))]
    congr 1
    push_cast
    field_simp
    ring
  rw [cnode_eq, T_real_cos, T_real_cos]
  have h1 : k = 2 * N * (k / (2 * N)) + k % (2 * N) := (Nat.div_add_mod k (2 * N)).symm
  have h2 := key (k % (2 * N)) (k / (2 * N))
  rw [← h1] at h2
  push_cast at h2 ⊢
  rw [h2]
  unfold aliasIdx
  split_ifs with h
  · rfl
  · have h3 : k % (2 * N) ≤ 2 * N := (Nat.mod_lt _ (by omega)).le
    rw [← Real.cos_neg, ← Real.cos_add_int_mul_two_pi _ ((N : ℤ) - i)]
    congr 1
    rw [Nat.cast_sub h3]
    push_cast
    field_simp
    ring

theorem T_lip (k : ℕ) {x y : ℝ} (hx : |x| ≤ 1) (hy : |y| ≤ 1) : |(T ℝ k).eval x - (T ℝ k).eval y| ≤ k ^ 2 * |x - y| := by
  rcases Nat.eq_zero_or_pos k with rfl | hk
  · simp
  have := (convex_Icc (-1 : ℝ) 1).norm_image_sub_le_of_norm_hasDerivWithin_le (f := fun t => (T ℝ k).eval t) (f' := fun t => (derivative (T ℝ k)).eval t) (C := (k : ℝ) ^ 2)
    (fun t _ => ((T ℝ k).hasDerivAt t).hasDerivWithinAt) (fun t ht => by
      rw [T_derivative_eq_U, eval_mul, Real.norm_eq_abs, abs_mul]
      simp only [Int.cast_natCast, eval_natCast, Nat.abs_cast]
      rw [sq]
      exact mul_le_mul_of_nonneg_left (U_le k hk t (abs_le.2 ht)) (by positivity)) (abs_le.1 hy) (abs_le.1 hx)
  simpa only [Real.norm_eq_abs] using this

/-- The interpolant of `∑ a k T k` on `[-W, W]`. -/
noncomputable def aliasPoly (N K : ℕ) (a : ℕ → ℝ) (W : ℝ) : ℝ[X] := ∑ k ∈ Finset.range K, C (a k) * (T ℝ (aliasIdx N k)).comp (C W⁻¹ * X)

theorem aliasPoly_degree (N K : ℕ) (a : ℕ → ℝ) (W : ℝ) : (aliasPoly N K a W).degree < (N + 1 : ℕ) := by
  refine lt_of_le_of_lt (degree_sum_le _ _) ?_
  rw [Finset.sup_lt_iff (by exact WithBot.bot_lt_coe _)]
  intro k _
  refine lt_of_le_of_lt (deg_C_mul_le _ _) ?_
  rw [degree_lt_iff_coeff_zero]
  intro i hi
  rw [comp_C_mul_X_coeff, coeff_eq_zero_of_natDegree_lt, zero_mul]
  rw [natDegree_T, Int.natAbs_natCast]
  have := aliasIdx_le N k
  omega

theorem aliasPoly_eval (N K : ℕ) (a : ℕ → ℝ) (W t : ℝ) : (aliasPoly N K a W).eval t = ∑ k ∈ Finset.range K, a k * (T ℝ (aliasIdx N k)).eval (W⁻¹ * t) := by
  rw [aliasPoly, eval_finsetSum]
  exact Finset.sum_congr rfl fun k _ => by simp [eval_comp]

/-- The coefficients beyond `N`. -/
noncomputable def chebTail (N K : ℕ) (a : ℕ → ℝ) : ℝ := ∑ k ∈ Finset.range K, if N < k then |a k| else 0

/-- The same with the squares of the degrees. -/
noncomputable def chebTail2 (N K : ℕ) (a : ℕ → ℝ) : ℝ := ∑ k ∈ Finset.range K, if N < k then 2 * k ^ 2 * |a k| else 0

theorem alias_diff (N K : ℕ) (a : ℕ → ℝ) {y : ℝ} (hy : |y| ≤ 1) :
    |∑ k ∈ Finset.range K, a k * (T ℝ (aliasIdx N k)).eval y - ∑ k ∈ Finset.range K, a k * (T ℝ k).eval y| ≤ 2 * chebTail N K a := by
  rw [← Finset.sum_sub_distrib, chebTail, Finset.mul_sum]
  refine (Finset.abs_sum_le_sum_abs _ _).trans (Finset.sum_le_sum fun k _ => ?_)
  split_ifs with h
  · rw [← mul_sub, abs_mul, mul_comm 2]
    exact mul_le_mul_of_nonneg_left (abs_sub_two (abs_eval_T_real_le_one _ hy) (abs_eval_T_real_le_one _ hy)) (abs_nonneg _)
  · rw [aliasIdx_of_le (by omega)]; simp

theorem alias_diff_node (N K i : ℕ) (hN : 1 ≤ N) (a : ℕ → ℝ) {y ε : ℝ} (hy : |y| ≤ 1) (hε : |y - cnode N i| ≤ ε) :
    |∑ k ∈ Finset.range K, a k * (T ℝ (aliasIdx N k)).eval y - ∑ k ∈ Finset.range K, a k * (T ℝ k).eval y| ≤ chebTail2 N K a * ε := by
  have hε0 : 0 ≤ ε := (abs_nonneg _).trans hε
  rw [← Finset.sum_sub_distrib, chebTail2, Finset.sum_mul]
  refine (Finset.abs_sum_le_sum_abs _ _).trans (Finset.sum_le_sum fun k _ => ?_)
  split_ifs with h
  · rw [← mul_sub, abs_mul]
    have h1 := T_lip (aliasIdx N k) hy (cnode_mem N i)
    have h2 := T_lip k hy (cnode_mem N i)
    have h3 := T_alias N k i hN
    have h4 : ((aliasIdx N k : ℕ) : ℝ) ^ 2 ≤ (k : ℝ) ^ 2 := by
      have : ((aliasIdx N k : ℕ) : ℝ) ≤ k := by exact_mod_cast (aliasIdx_le N k).trans h.le
      gcongr
    have h5 : ((aliasIdx N k : ℕ) : ℝ) ^ 2 * |y - cnode N i| ≤ (k : ℝ) ^ 2 * ε := mul_le_mul h4 hε (abs_nonneg _) (by positivity)
    have h6 : (k : ℝ) ^ 2 * |y - cnode N i| ≤ (k : ℝ) ^ 2 * ε := mul_le_mul_of_nonneg_left hε (by positivity)
    have h7 : |(T ℝ (aliasIdx N k)).eval y - (T ℝ k).eval y| ≤ 2 * (k : ℝ) ^ 2 * ε := by
      rw [abs_le] at h1 h2 ⊢
      constructor <;> linarith [h1.1, h1.2, h2.1, h2.2]
    calc |a k| * |(T ℝ (aliasIdx N k)).eval y - (T ℝ k).eval y| ≤ |a k| * (2 * (k : ℝ) ^ 2 * ε) := mul_le_mul_of_nonneg_left h7 (abs_nonneg _)
      _ = _ := by ring
  · rw [aliasIdx_of_le (by omega)]; simp

/-- The polynomial found by `approx` for a target close to a sum of Chebyshev polynomials. -/
theorem approx_terms_cheb (ext : BdExt) (e : Expr) (N n : ℕ) (hN : 1 ≤ N) (h1 : 6 ≤ n) (h2 : n ≤ 94) (xmin xmax : Dec) (hlt : xmin.val < xmax.val)
    (hsym : xmin.val = -xmax.val) (hw : xmax.val ≤ 1) (h4 : 4 ^ N * 8 ≤ 10 ^ n) (hN2 : 1000 * N ^ 2 ≤ 10 ^ n) (x : Name) (parity : Parity)
    (hpar : parity.accepts (N + 1)) (f : ℝ → ℝ) (K : ℕ) (a : ℕ → ℝ) (τ M₀ η η' : ℝ) (M : ℚ)
    (hf : ∀ y : ℝ, |y| ≤ 1 → |f (xmax.val * y) - ∑ k ∈ Finset.range K, a k * (T ℝ k).eval y| ≤ τ)
    (hM₀ : DDBounded (fun t => (aliasPoly N K a xmax.val).eval t) N (-xmax.val) xmax.val M₀)
    (hη : 0 ≤ η) (hη' : η + τ + chebTail2 N K a * (1 / 10 ^ n) ≤ η')
    (hs : ∀ d : Dec, xmin.val ≤ d.val → d.val ≤ xmax.val → ∃ y, sampleAt ext e x n d = .ok y ∧ |(y.val : ℝ) - f d.val| ≤ η)
    (hM : M₀ + (η' + N * (1 / 2 / 10 ^ 99 * M₀ + 1 / 2 / 10 ^ n)) * ddAmp N xmax.val ≤ M) :
    ∃ terms r, approx ext e (N + 1) xmin xmax x parity n = .ok r ∧ mulAddPolynomial terms x parity = .ok r ∧ terms.length = N + 1 ∧
      ∀ t ∈ Set.Icc (xmin.val : ℝ) xmax.val, |∑ i ∈ Finset.range (N + 1), (valAt terms i : ℝ) * t ^ i - f t| ≤
        τ + 2 * chebTail N K a + 3 * (N + 1) * (nodeResidual N n (2 * xmax.val) xmax.val M + η') ∧
        |∑ i ∈ Finset.range (N + 1), (valAt terms i : ℝ) * t ^ i - (aliasPoly N K a xmax.val).eval t| ≤
          3 * (N + 1) * (nodeResidual N n (2 * xmax.val) xmax.val M + η') := by
  have hpos : 0 < xmax.val := by linarith
  set W : ℝ := (xmax.val : ℝ) with hW
  have hW0 : 0 < W := by rw [hW]; exact_mod_cast hpos
  have hs1 : (xmin.val : ℝ) = -W := by rw [hW]; exact_mod_cast hsym
  have hc : (W + xmin.val) / 2 = 0 := by rw [hs1]; ring
  have hh : (W - xmin.val) / 2 = W := by rw [hs1]; ring
  have hdiff : xmax.val - xmin.val = 2 * xmax.val := by rw [hsym]; ring
  have hτ : 0 ≤ τ := (abs_nonneg _).trans (hf 0 (by simp))
  have ht2 : 0 ≤ chebTail2 N K a := Finset.sum_nonneg fun k _ => by split_ifs <;> positivity
  have hη'0 : 0 ≤ η' := le_trans (by positivity) hη'
  have hin : ∀ t : ℝ, |t| ≤ W → |W⁻¹ * t| ≤ 1 := fun t ht => by rw [abs_mul, abs_of_pos (inv_pos.2 hW0), inv_mul_le_iff₀ hW0, mul_one]; exact ht
  have hfar : ∀ t : ℝ, |t| ≤ W → |f t - ∑ k ∈ Finset.range K, a k * (T ℝ k).eval (W⁻¹ * t)| ≤ τ := fun t ht => by
    have := hf _ (hin t ht)
    rwa [mul_inv_cancel_left₀ hW0.ne'] at this
  obtain ⟨terms, r, hr, hm, hl, P, xs, hPd, hPe, -, H, hε, hnode⟩ := approx_nodes ext e N n hN h1 h2 xmin xmax hlt (by rw [hdiff]; linarith) h4 hN2 x parity hpar
    (fun t => (aliasPoly N K a W).eval t) M₀ η' M xmax.val (by rw [hs1]; exact hM₀) hη'0 (by
      intro i hi d hd1 hd2 hd3
      obtain ⟨y, hy1, hy2⟩ := hs d hd1 hd2
      refine ⟨y, hy1, ?_⟩
      have hd : |(d.val : ℝ)| ≤ W := by
        have a1 := (Rat.cast_le (K := ℝ)).2 hd1
        have a2 := (Rat.cast_le (K := ℝ)).2 hd2
        rw [hs1] at a1
        exact abs_le.2 ⟨a1, a2⟩
      rw [← hW, hc, hh, zero_sub] at hd3
      have hd4 : |W⁻¹ * (d.val : ℝ) - cnode N i| ≤ 1 / 10 ^ n := by
        have e1 : (d.val : ℝ) - -(W * Real.cos (Real.pi * i / ((N + 1 : ℕ) - 1))) = W * (W⁻¹ * (d.val : ℝ) - cnode N i) := by
          rw [mul_sub, mul_inv_cancel_left₀ hW0.ne', cnode]
          push_cast
          rw [add_sub_cancel_right, mul_comm Real.pi]
          ring
        rw [e1, abs_mul, abs_of_pos hW0] at hd3
        exact le_of_mul_le_mul_left hd3 hW0
      have b1 := alias_diff_node N K i hN a (hin _ hd) hd4
      have b2 := hfar _ hd
      simp only [aliasPoly_eval]
      rw [abs_le] at hy2 b1 b2 ⊢
      constructor <;> linarith [hy2.1, hy2.2, b1.1, b1.2, b2.1, b2.2]) (by rw [← hW, hh]; exact hM) (by rw [hsym, abs_neg, abs_of_pos hpos]) (by rw [abs_of_pos hpos])
  refine ⟨terms, r, hr, hm, hl, fun t ht => ?_⟩
  have ht' : |t| ≤ W := by rw [hs1] at ht; exact abs_le.2 ht
  have h3 := H.small hε (P - aliasPoly N K a W) (lt_of_le_of_lt (degree_sub_le _ _) (max_lt hPd (aliasPoly_degree N K a W))) (nodeResidual N n (xmax.val - xmin.val) xmax.val M + η') (by
    intro i hi
    rw [eval_sub]
    exact hnode i hi) t (by rw [← hW, hc, hh, sub_zero]; exact ht')
  rw [eval_sub, hPe, hdiff] at h3
  refine ⟨?_, h3⟩
  have b1 := alias_diff N K a (hin t ht')
  have b2 := hfar t ht'
  rw [← aliasPoly_eval] at b1
  rw [abs_le] at h3 b1 b2 ⊢
  constructor <;> linarith [h3.1, h3.2, b1.1, b1.2, b2.1, b2.2]

/-- The interpolant is a polynomial close to the target. -/
theorem nearPoly_alias (N K : ℕ) (a : ℕ → ℝ) {W τ A : ℝ} (hW0 : 0 < W) (f : ℝ → ℝ) (hf : ∀ y : ℝ, |y| ≤ 1 → |f (W * y) - ∑ k ∈ Finset.range K, a k * (T ℝ k).eval y| ≤ τ)
    (hA : absSum (N + 1) (aliasPoly N K a W) W ≤ A) : NearPoly f N W (τ + 2 * chebTail N K a) A := by
  intro γ hγ
  refine ⟨_, aliasPoly_degree N K a W, fun t ht => ?_, hA⟩
  have hin : |W⁻¹ * t| ≤ 1 := by rw [abs_mul, abs_of_pos (inv_pos.2 hW0), inv_mul_le_iff₀ hW0, mul_one]; exact ht
  have b1 := alias_diff N K a hin
  have b2 := hf _ hin
  rw [mul_inv_cancel_left₀ hW0.ne'] at b2
  rw [← aliasPoly_eval] at b1
  rw [abs_le] at b1 b2 ⊢
  constructor <;> linarith [b1.1, b1.2, b2.1, b2.2]

end Verif

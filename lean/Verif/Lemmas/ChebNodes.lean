import Mathlib.Analysis.SpecialFunctions.Trigonometric.Chebyshev.RootsExtrema
import Mathlib.LinearAlgebra.Lagrange
import Mathlib.Analysis.Calculus.MeanValue
import Mathlib.Analysis.SpecialFunctions.Trigonometric.Bounds

/-!
# Products over the Chebyshev nodes
-/

namespace Verif

open Polynomial Polynomial.Chebyshev

/-- The nodes `-cos (i π / N)`, `i = 0, …, N`. -/
noncomputable def cnode (N i : ℕ) : ℝ := -Real.cos (i * Real.pi / N)

theorem cnode_mem (N i : ℕ) : |cnode N i| ≤ 1 := by rw [cnode, abs_neg]; exact Real.abs_cos_le_one _

theorem cnode_eq (N i : ℕ) : cnode N i = Real.cos (Real.pi - i * Real.pi / N) := by rw [Real.cos_pi_sub]; rfl

/-- The polynomial with the nodes as its roots, times `2 ^ (N - 1)`. -/
noncomputable def nodalT (N : ℕ) : ℝ[X] := X * T ℝ N - T ℝ ((N : ℤ) - 1)

theorem nodalT_cos (N : ℕ) (θ : ℝ) : (nodalT N).eval (Real.cos θ) = -(Real.sin θ * Real.sin (N * θ)) := by
  rw [nodalT, eval_sub, eval_mul, eval_X, T_real_cos, T_real_cos]
  push_cast
  rw [show ((N : ℝ) - 1) * θ = N * θ - θ by ring, Real.cos_sub]
  ring

theorem nodalT_le (N : ℕ) (x : ℝ) (hx : |x| ≤ 1) : |(nodalT N).eval x| ≤ 1 := by
  have h := abs_le.1 hx
  rw [← Real.cos_arccos h.1 h.2, nodalT_cos, abs_neg, abs_mul]
  exact mul_le_one₀ (Real.abs_sin_le_one _) (abs_nonneg _) (Real.abs_sin_le_one _)

theorem nodalT_zero (N i : ℕ) (hN : 1 ≤ N) : (nodalT N).eval (cnode N i) = 0 := by
  have hN0 : (N : ℝ) ≠ 0 := by positivity
  rw [cnode_eq, nodalT_cos, show (N : ℝ) * (Real.pi - i * Real.pi / N) = ((N : ℤ) - (i : ℤ) : ℤ) * Real.pi by push_cast; field_simp,
    Real.sin_int_mul_pi]
  simp

theorem cnode_lt (N i j : ℕ) (hN : 1 ≤ N) (hij : i < j) (hj : j ≤ N) : cnode N i < cnode N j := by
  have hN0 : (0 : ℝ) < N := by exact_mod_cast hN
  have hi : (i : ℝ) < j := by exact_mod_cast hij
  have hj' : (j : ℝ) ≤ N := by exact_mod_cast hj
  have := Real.pi_pos
  rw [cnode, cnode, neg_lt_neg_iff]
  apply Real.cos_lt_cos_of_nonneg_of_le_pi (by positivity)
  · rw [div_le_iff₀ hN0, mul_comm]; exact mul_le_mul_of_nonneg_left hj' this.le
  · exact div_lt_div_of_pos_right (mul_lt_mul_of_pos_right hi this) hN0

theorem cnode_injOn (N : ℕ) (hN : 1 ≤ N) : Set.InjOn (cnode N) (Finset.range (N + 1) : Set ℕ) := by
  intro i hi j hj h
  simp only [Finset.coe_range, Set.mem_Iio] at hi hj
  rcases lt_trichotomy i j with h1 | h1 | h1
  · exact absurd h (cnode_lt N i j hN h1 (by omega)).ne
  · exact h1
  · exact absurd h (cnode_lt N j i hN h1 (by omega)).ne'

theorem nodalT_eq (N : ℕ) (hN : 1 ≤ N) : nodalT N = C (2 ^ (N - 1)) * ∏ i ∈ Finset.range (N + 1), (X - C (cnode N i)) := by
  have h2 : (2 : ℝ) ^ (N - 1) ≠ 0 := by positivity
  have hlt : (T ℝ ((N : ℤ) - 1)).degree < (X * T ℝ (N : ℤ)).degree := by
    rw [mul_comm, degree_mul_X, degree_T, degree_T]
    exact_mod_cast (by omega : ((N : ℤ) - 1).natAbs < (N : ℤ).natAbs + 1)
  have hd : (nodalT N).degree = (N + 1 : ℕ) := by
    rw [nodalT, degree_sub_eq_left_of_degree_lt hlt, mul_comm, degree_mul_X, degree_T]
    simp
  have hm : (∏ i ∈ Finset.range (N + 1), (X - C (cnode N i))).Monic := monic_prod_of_monic _ _ fun i _ => monic_X_sub_C _
  apply eq_of_degree_le_of_eval_index_eq (s := Finset.range (N + 1)) (v := cnode N) (hvs := cnode_injOn N hN)
  · rw [hd, Finset.card_range]
  · rw [hd, degree_C_mul h2, degree_prod]
    simp
  · rw [nodalT, leadingCoeff_sub_of_degree_lt hlt, leadingCoeff_mul, leadingCoeff_mul, hm.leadingCoeff, leadingCoeff_X, leadingCoeff_T, leadingCoeff_C]
    simp
  · intro i hi
    rw [nodalT_zero N i hN, eval_mul, eval_prod, Finset.prod_eq_zero hi (by simp), mul_zero]

theorem nodalT_deriv (N : ℕ) : derivative (nodalT N) = (N : ℝ[X]) * T ℝ N + X * U ℝ ((N : ℤ) - 1) := by
  have h1 := T_eq_U_sub_X_mul_U ℝ (N : ℤ)
  have h2 := U_eq ℝ (N : ℤ)
  rw [nodalT, derivative_sub, derivative_mul, T_derivative_eq_U, T_derivative_eq_U, derivative_X, show (N : ℤ) - 1 - 1 = N - 2 by ring]
  push_cast
  linear_combination ((N : ℝ[X]) - 1) * (-h2 - h1)

theorem U_le (N : ℕ) (hN : 1 ≤ N) (x : ℝ) (hx : |x| ≤ 1) : |(U ℝ ((N : ℤ) - 1)).eval x| ≤ N := by
  have h := abs_iterate_derivative_T_real_le N 1 hx
  rw [Function.iterate_one, T_derivative_eq_U, eval_mul, eval_mul, U_eval_one] at h
  have hN0 : (0 : ℝ) < N := by exact_mod_cast hN
  simp only [Int.cast_natCast, eval_natCast, abs_mul, Nat.abs_cast, Int.cast_sub, Int.cast_one, sub_add_cancel] at h
  exact le_of_mul_le_mul_left h hN0

theorem nodalT_deriv_le (N : ℕ) (hN : 1 ≤ N) (x : ℝ) (hx : |x| ≤ 1) : |(derivative (nodalT N)).eval x| ≤ 2 * N := by
  rw [nodalT_deriv, eval_add, eval_mul, eval_mul, eval_natCast, eval_X]
  have h1 := abs_eval_T_real_le_one N hx
  have h2 := U_le N hN x hx
  have hN0 : (0 : ℝ) ≤ N := by positivity
  calc _ ≤ |(N : ℝ) * (T ℝ N).eval x| + |x * (U ℝ ((N : ℤ) - 1)).eval x| := abs_add_le _ _
    _ ≤ N * 1 + 1 * N := by
      rw [abs_mul, abs_mul, Nat.abs_cast]
      exact add_le_add (mul_le_mul_of_nonneg_left h1 hN0) (mul_le_mul hx h2 (abs_nonneg _) zero_le_one)
    _ = 2 * N := by ring

theorem nodalT_deriv_ge (N i : ℕ) (hN : 1 ≤ N) (hi : i ≤ N) : (N : ℝ) ≤ |(derivative (nodalT N)).eval (cnode N i)| := by
  have hN0 : (0 : ℝ) < N := by exact_mod_cast hN
  have hT : |(T ℝ N).eval (cnode N i)| = 1 := by
    rw [cnode_eq, T_real_cos, show (((N : ℤ) : ℝ) * (Real.pi - i * Real.pi / N)) = ((N : ℤ) - (i : ℤ) : ℤ) * Real.pi by push_cast; field_simp,
      Real.abs_cos_int_mul_pi]
  rw [nodalT_deriv, eval_add, eval_mul, eval_mul, eval_natCast, eval_X]
  set x := cnode N i with hx
  have hu : 0 ≤ (x * (U ℝ ((N : ℤ) - 1)).eval x) * (T ℝ N).eval x := by
    have hc := cnode_eq N i
    by_cases hs : Real.sin (Real.pi - i * Real.pi / N) = 0
    · rcases (Real.sin_eq_zero_iff_cos_eq.1 hs) with h | h <;> rw [← hc, ← hx] at h
      · rw [h, U_eval_one, T_eval_one]
        push_cast
        nlinarith
      · obtain ⟨M, rfl⟩ : ∃ M, N = M + 1 := ⟨N - 1, by omega⟩
        rw [h, T_eval_neg_one, show ((M + 1 : ℕ) : ℤ) - 1 = M by push_cast; ring, U_eval_neg_one]
        push_cast
        rw [Int.negOnePow_succ]
        have : (((M : ℤ).negOnePow : ℤ) : ℝ) * (((M : ℤ).negOnePow : ℤ) : ℝ) = 1 := by
          rw [← Int.cast_mul, ← Units.val_mul, ← Int.negOnePow_add]
          simp [Int.negOnePow_even _ ⟨(M : ℤ), rfl⟩]
        push_cast
        nlinarith
    · have h := U_real_cos (Real.pi - i * Real.pi / N) ((N : ℤ) - 1)
      rw [← hc, ← hx, show (((N : ℤ) - 1 : ℤ) : ℝ) + 1 = N by push_cast; ring,
        show (N : ℝ) * (Real.pi - i * Real.pi / N) = ((N : ℤ) - (i : ℤ) : ℤ) * Real.pi by push_cast; field_simp, Real.sin_int_mul_pi] at h
      rw [(mul_eq_zero.1 h).resolve_right hs]
      simp
  have hT2 : (T ℝ N).eval x * (T ℝ N).eval x = 1 := by rw [← abs_mul_abs_self, hT, one_mul]
  have h3 := le_abs_self ((T ℝ N).eval x * ((N : ℝ) * (T ℝ N).eval x + x * (U ℝ ((N : ℤ) - 1)).eval x))
  rw [abs_mul, hT, one_mul] at h3
  nlinarith

/-! ## What is needed later -/

theorem nodalT_eval (N : ℕ) (hN : 1 ≤ N) (x : ℝ) : (nodalT N).eval x = 2 ^ (N - 1) * ∏ i ∈ Finset.range (N + 1), (x - cnode N i) := by
  rw [nodalT_eq N hN, eval_mul, eval_prod]
  simp

theorem nodalT_deriv_node (N i : ℕ) (hN : 1 ≤ N) (hi : i ≤ N) :
    (derivative (nodalT N)).eval (cnode N i) = 2 ^ (N - 1) * ∏ j ∈ (Finset.range (N + 1)).erase i, (cnode N i - cnode N j) := by
  rw [nodalT_eq N hN, derivative_C_mul, eval_mul, eval_C, ← Finset.mul_prod_erase _ _ (Finset.mem_range.2 (by omega : i < N + 1)), derivative_mul,
    eval_add, eval_mul, eval_mul, eval_prod]
  simp

/-- The product over all nodes. -/
theorem prod_nodes (N : ℕ) (hN : 1 ≤ N) (x : ℝ) (hx : |x| ≤ 1) : 2 ^ (N - 1) * ∏ i ∈ Finset.range (N + 1), |x - cnode N i| ≤ 1 := by
  have h := nodalT_le N x hx
  rwa [nodalT_eval N hN, abs_mul, Finset.abs_prod, abs_of_pos (by positivity : (0 : ℝ) < 2 ^ (N - 1))] at h

/-- The product over all nodes but one, at that node. -/
theorem prod_nodes_self (N i : ℕ) (hN : 1 ≤ N) (hi : i ≤ N) :
    (N : ℝ) ≤ 2 ^ (N - 1) * ∏ j ∈ (Finset.range (N + 1)).erase i, |cnode N i - cnode N j| := by
  have h := nodalT_deriv_ge N i hN hi
  rwa [nodalT_deriv_node N i hN hi, abs_mul, Finset.abs_prod, abs_of_pos (by positivity : (0 : ℝ) < 2 ^ (N - 1))] at h

/-- The product over all nodes but one, anywhere. -/
theorem prod_nodes_erase (N i : ℕ) (hN : 1 ≤ N) (hi : i ≤ N) (x : ℝ) (hx : |x| ≤ 1) :
    2 ^ (N - 1) * ∏ j ∈ (Finset.range (N + 1)).erase i, |x - cnode N j| ≤ 2 * N := by
  by_cases hxi : x = cnode N i
  · have h := nodalT_deriv_le N hN x hx
    rw [hxi] at h ⊢
    rwa [nodalT_deriv_node N i hN hi, abs_mul, Finset.abs_prod, abs_of_pos (by positivity : (0 : ℝ) < 2 ^ (N - 1))] at h
  · have hlip := Convex.norm_image_sub_le_of_norm_hasDerivWithin_le (f := fun t => (nodalT N).eval t) (f' := fun t => (derivative (nodalT N)).eval t)
      (s := Set.Icc (-1 : ℝ) 1) (C := 2 * N) (fun t _ => ((nodalT N).hasDerivAt t).hasDerivWithinAt)
      (fun t ht => nodalT_deriv_le N hN t (abs_le.2 ht)) (convex_Icc _ _) (abs_le.1 (cnode_mem N i)) (abs_le.1 hx)
    rw [nodalT_zero N i hN, sub_zero, Real.norm_eq_abs, Real.norm_eq_abs, nodalT_eval N hN, abs_mul, Finset.abs_prod,
      abs_of_pos (by positivity : (0 : ℝ) < 2 ^ (N - 1)), ← Finset.mul_prod_erase _ _ (Finset.mem_range.2 (by omega : i < N + 1))] at hlip
    have hpos : 0 < |x - cnode N i| := abs_pos.2 (sub_ne_zero.2 hxi)
    have : |x - cnode N i| * (2 ^ (N - 1) * ∏ j ∈ (Finset.range (N + 1)).erase i, |x - cnode N j|) ≤ |x - cnode N i| * (2 * N) := by linarith
    exact le_of_mul_le_mul_left this hpos

/-- The distance between two nodes. -/
theorem cnode_gap (N i j : ℕ) (hN : 1 ≤ N) (hij : i ≤ j) (hj : j ≤ N) : 2 * ((j - i : ℕ) / N : ℝ) ^ 2 ≤ cnode N j - cnode N i := by
  have hN0 : (0 : ℝ) < N := by exact_mod_cast hN
  have hpi := Real.pi_pos
  have hi' : (i : ℝ) ≤ j := by exact_mod_cast hij
  have hj' : (j : ℝ) ≤ N := by exact_mod_cast hj
  have hi0 : (0 : ℝ) ≤ i := by positivity
  rw [Nat.cast_sub hij, cnode, cnode, neg_sub_neg, Real.cos_sub_cos]
  have ea : (i * Real.pi / N + j * Real.pi / N) / 2 = (i + j) / N * (Real.pi / 2) := by ring
  have eb : (i * Real.pi / N - j * Real.pi / N) / 2 = -((j - i) / N * (Real.pi / 2)) := by ring
  rw [ea, eb, Real.sin_neg]
  have key : ∀ u : ℝ, 0 ≤ u → u ≤ 1 → u ≤ Real.sin (u * (Real.pi / 2)) := by
    intro u h0 h1
    have h := Real.mul_le_sin (x := u * (Real.pi / 2)) (by positivity) (by nlinarith)
    rwa [show 2 / Real.pi * (u * (Real.pi / 2)) = u by field_simp] at h
  have hs0 : 0 ≤ ((j : ℝ) - i) / N := div_nonneg (by linarith) hN0.le
  have hs1 : ((j : ℝ) - i) / N ≤ 1 := by rw [div_le_one hN0]; linarith
  have h1 := key _ hs0 hs1
  have h2 : ((j : ℝ) - i) / N ≤ Real.sin ((i + j) / N * (Real.pi / 2)) := by
    by_cases hc : ((i : ℝ) + j) / N ≤ 1
    · exact le_trans (div_le_div_of_nonneg_right (by linarith) hN0.le) (key _ (by positivity) hc)
    · have h3 := key (2 - ((i : ℝ) + j) / N) (by rw [sub_nonneg, div_le_iff₀ hN0]; linarith) (by linarith)
      rw [show (2 - ((i : ℝ) + j) / N) * (Real.pi / 2) = Real.pi - (i + j) / N * (Real.pi / 2) by ring, Real.sin_pi_sub] at h3
      refine le_trans ?_ h3
      rw [le_sub_iff_add_le, ← add_div, div_le_iff₀ hN0]
      linarith
  nlinarith [mul_le_mul h2 h1 hs0 (le_trans hs0 h2)]

end Verif

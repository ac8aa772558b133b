import Mathlib.Analysis.SpecialFunctions.Trigonometric.Chebyshev.RootsExtrema
import Mathlib.Analysis.SpecialFunctions.Trigonometric.Chebyshev.Orthogonality
import Mathlib.Topology.Algebra.InfiniteSum.Real
import Mathlib.Tactic.Linarith
import Mathlib.Tactic.FieldSimp

/-!
# Polynomials close to a power series

Every power of `x` is a combination of Chebyshev polynomials with non-negative coefficients.  Cutting the combination off gives a polynomial
of low degree that is close on the whole interval.
-/

namespace Verif

open Polynomial Polynomial.Chebyshev

/-- The sum of the absolute values of the first `K` terms at `x`. -/
noncomputable def absSum (K : ℕ) (p : ℝ[X]) (x : ℝ) : ℝ := ∑ i ∈ Finset.range K, |p.coeff i| * x ^ i

theorem absSum_nonneg (K : ℕ) (p : ℝ[X]) {x : ℝ} (hx : 0 ≤ x) : 0 ≤ absSum K p x := Finset.sum_nonneg fun i _ => by positivity

theorem absSum_add (K : ℕ) (p q : ℝ[X]) {x : ℝ} (hx : 0 ≤ x) : absSum K (p + q) x ≤ absSum K p x + absSum K q x := by
  unfold absSum
  rw [← Finset.sum_add_distrib]
  refine Finset.sum_le_sum fun i _ => ?_
  rw [coeff_add, ← add_mul]
  exact mul_le_mul_of_nonneg_right (abs_add_le _ _) (by positivity)

theorem absSum_C_mul (K : ℕ) (a : ℝ) (p : ℝ[X]) (x : ℝ) : absSum K (C a * p) x = |a| * absSum K p x := by
  unfold absSum
  rw [Finset.mul_sum]
  refine Finset.sum_congr rfl fun i _ => ?_
  rw [coeff_C_mul, abs_mul, mul_assoc]

theorem absSum_neg (K : ℕ) (p : ℝ[X]) (x : ℝ) : absSum K (-p) x = absSum K p x := by
  unfold absSum; simp

theorem absSum_zero (K : ℕ) (x : ℝ) : absSum K 0 x = 0 := by simp [absSum]

theorem absSum_sum {ι : Type} (K : ℕ) (s : Finset ι) (p : ι → ℝ[X]) {x : ℝ} (hx : 0 ≤ x) : absSum K (∑ i ∈ s, p i) x ≤ ∑ i ∈ s, absSum K (p i) x := by
  classical
  induction s using Finset.induction_on with
  | empty => simp [absSum_zero]
  | insert i s hi ih =>
    rw [Finset.sum_insert hi, Finset.sum_insert hi]
    exact (absSum_add K _ _ hx).trans (by linarith)

theorem absSum_X_mul (K : ℕ) (p : ℝ[X]) : absSum K (X * p) 1 ≤ absSum K p 1 := by
  unfold absSum
  cases K with
  | zero => simp
  | succ K =>
    rw [Finset.sum_range_succ', Finset.sum_range_succ]
    simp only [coeff_X_mul, mul_coeff_zero, coeff_X_zero, zero_mul, abs_zero, one_pow, mul_one, add_zero]
    have := abs_nonneg (p.coeff K)
    linarith

theorem absSum_X_pow_le (K m : ℕ) : absSum K (X ^ m) 1 ≤ 1 := by
  unfold absSum
  simp only [coeff_X_pow, one_pow, mul_one]
  calc ∑ i ∈ Finset.range K, |if i = m then (1 : ℝ) else 0| = ∑ i ∈ Finset.range K, if i = m then (1 : ℝ) else 0 :=
        Finset.sum_congr rfl fun i _ => by split_ifs <;> simp
    _ ≤ 1 := by rw [Finset.sum_ite_eq']; split_ifs <;> norm_num

theorem deg_C_mul_le (a : ℝ) (p : ℝ[X]) : (C a * p).degree ≤ p.degree := by
  refine (degree_mul_le _ _).trans ?_
  refine (add_le_add degree_C_le le_rfl).trans ?_
  rw [zero_add]

/-- `1 + √2`, the size of the coefficients of Chebyshev polynomials. -/
noncomputable def silver : ℝ := 1 + √2

theorem silver_sq : silver ^ 2 = 2 * silver + 1 := by
  have : √2 ^ 2 = (2 : ℝ) := Real.sq_sqrt (by norm_num)
  unfold silver; nlinarith

theorem silver_pos : 0 < silver := by unfold silver; positivity

theorem one_le_silver : 1 ≤ silver := by
  have : 0 ≤ √(2 : ℝ) := Real.sqrt_nonneg 2
  unfold silver; linarith

theorem absSum_T (K k : ℕ) : absSum K (T ℝ k) 1 ≤ silver ^ k := by
  induction k using Nat.twoStepInduction with
  | zero => simpa using absSum_X_pow_le K 0
  | one =>
    have := absSum_X_pow_le K 1
    simp only [Nat.cast_one, T_one, pow_one] at this ⊢
    exact this.trans one_le_silver
  | more k h1 h2 =>
    have e : T ℝ ((k + 2 : ℕ) : ℤ) = C 2 * (X * T ℝ ((k + 1 : ℕ) : ℤ)) + -T ℝ (k : ℤ) := by
      push_cast
      rw [T_add_two]
      rw [show (C 2 : ℝ[X]) = 2 from rfl]
      ring
    rw [e]
    refine (absSum_add K _ _ zero_le_one).trans ?_
    rw [absSum_neg, absSum_C_mul, abs_two]
    have h3 := absSum_X_mul K (T ℝ ((k + 1 : ℕ) : ℤ))
    have : silver ^ (k + 2) = 2 * silver ^ (k + 1) + silver ^ k := by rw [pow_add, silver_sq]; ring
    linarith

/-- Combinations of Chebyshev polynomials with non-negative coefficients. -/
inductive ChebPos : ℝ[X] → Prop
  | zero : ChebPos 0
  | add (a : ℝ) (k : ℕ) (p : ℝ[X]) : 0 ≤ a → ChebPos p → ChebPos (C a * T ℝ k + p)

theorem ChebPos.X_mul {p : ℝ[X]} (h : ChebPos p) : ChebPos (X * p) := by
  induction h with
  | zero => rw [mul_zero]; exact .zero
  | add a k p ha _ ih =>
    cases k with
    | zero =>
      have e : X * (C a * T ℝ ((0 : ℕ) : ℤ) + p) = C a * T ℝ ((1 : ℕ) : ℤ) + X * p := by simp; ring
      rw [e]
      exact .add a 1 _ ha ih
    | succ k =>
      have e : X * (C a * T ℝ ((k + 1 : ℕ) : ℤ) + p) = C (a / 2) * T ℝ ((k + 2 : ℕ) : ℤ) + (C (a / 2) * T ℝ (k : ℤ) + X * p) := by
        have h2 : (C a : ℝ[X]) = C (a / 2) * 2 := by
          rw [show (2 : ℝ[X]) = C 2 from rfl, ← Polynomial.C_mul]; congr 1; ring
        rw [h2]
        push_cast
        rw [T_add_two]
        ring
      rw [e]
      exact .add _ _ _ (by positivity) (.add _ _ _ (by positivity) ih)

theorem chebPos_X_pow (m : ℕ) : ChebPos (X ^ m) := by
  induction m with
  | zero =>
    have : (X ^ 0 : ℝ[X]) = C 1 * T ℝ ((0 : ℕ) : ℤ) + 0 := by simp
    rw [this]
    exact .add 1 0 0 zero_le_one .zero
  | succ m ih => rw [pow_succ']; exact ih.X_mul

theorem T_at_joukowski (k : ℕ) {ρ : ℝ} (h : 0 < ρ) : (T ℝ k).eval ((ρ + ρ⁻¹) / 2) = (ρ ^ k + (ρ ^ k)⁻¹) / 2 := by
  induction k using Nat.twoStepInduction with
  | zero => simp
  | one => simp
  | more k h1 h2 =>
    push_cast at h2 ⊢
    rw [T_add_two, eval_sub, eval_mul, h1, h2]
    simp only [eval_mul, eval_ofNat, eval_X]
    have := h.ne'
    field_simp
    ring

theorem T_at_ge (k : ℕ) {ρ : ℝ} (h : 0 < ρ) : ρ ^ k / 2 ≤ (T ℝ k).eval ((ρ + ρ⁻¹) / 2) := by
  rw [T_at_joukowski k h]
  have : 0 < (ρ ^ k)⁻¹ := by positivity
  linarith

theorem silver_joukowski : (silver + silver⁻¹) / 2 = √2 := by
  have h := silver_sq
  have h0 := silver_pos.ne'
  have : silver⁻¹ = silver - 2 := by field_simp; nlinarith
  rw [this]; unfold silver; ring

theorem ChebPos.cut {p : ℝ[X]} (h : ChebPos p) (N : ℕ) {ρ : ℝ} (hρ : 1 ≤ ρ) :
    ∃ Q : ℝ[X], Q.degree < (N + 1 : ℕ) ∧ (∀ t, |t| ≤ 1 → |p.eval t - Q.eval t| ≤ 2 / ρ ^ (N + 1) * p.eval ((ρ + ρ⁻¹) / 2)) ∧
      absSum (N + 1) Q 1 ≤ 2 * p.eval √2 := by
  have hρ0 : 0 < ρ := by linarith
  induction h with
  | zero => exact ⟨0, by simpa using WithBot.bot_lt_coe _, by simp, by simp [absSum_zero]⟩
  | add a k p ha _ ih =>
    obtain ⟨Q, h1, h2, h3⟩ := ih
    have hT := T_at_ge k hρ0
    have hT2 := T_at_ge k silver_pos
    rw [silver_joukowski] at hT2
    have hp : 0 < ρ ^ k := by positivity
    have hs : 0 < silver ^ k := pow_pos silver_pos k
    have hc : (0 : ℝ) < 2 / ρ ^ (N + 1) := by positivity
    by_cases hk : k ≤ N
    · refine ⟨C a * T ℝ k + Q, ?_, fun t ht => ?_, ?_⟩
      · refine lt_of_le_of_lt (degree_add_le _ _) (max_lt ?_ h1)
        refine lt_of_le_of_lt (deg_C_mul_le _ _) ?_
        rw [degree_T, Int.natAbs_natCast]
        exact_mod_cast Nat.lt_succ_of_le hk
      · simp only [eval_add, eval_mul, eval_C]
        rw [add_sub_add_left_eq_sub]
        refine (h2 t ht).trans (mul_le_mul_of_nonneg_left ?_ hc.le)
        have : 0 ≤ a * (T ℝ k).eval ((ρ + ρ⁻¹) / 2) := mul_nonneg ha (by linarith)
        linarith
      · refine (absSum_add _ _ _ zero_le_one).trans ?_
        rw [absSum_C_mul, abs_of_nonneg ha]
        simp only [eval_add, eval_mul, eval_C]
        have h4 := absSum_T (N + 1) k
        have := mul_le_mul_of_nonneg_left (h4.trans (by linarith : silver ^ k ≤ 2 * (T ℝ k).eval √2)) ha
        linarith
    · refine ⟨Q, h1, fun t ht => ?_, ?_⟩
      · simp only [eval_add, eval_mul, eval_C]
        have h4 := abs_add_le (a * (T ℝ k).eval t) (p.eval t - Q.eval t)
        rw [← add_sub_assoc] at h4
        refine h4.trans ?_
        rw [abs_mul, abs_of_nonneg ha, mul_add]
        refine add_le_add ?_ (h2 t ht)
        have h5 := abs_eval_T_real_le_one k ht
        have h6 : ρ ^ (N + 1) ≤ ρ ^ k := pow_le_pow_right₀ hρ (by omega)
        have h7 : 1 ≤ 2 / ρ ^ (N + 1) * (T ℝ k).eval ((ρ + ρ⁻¹) / 2) := by
          rw [div_mul_eq_mul_div, le_div_iff₀ (by positivity)]
          linarith
        calc a * |(T ℝ k).eval t| ≤ a * 1 := mul_le_mul_of_nonneg_left h5 ha
          _ ≤ a * (2 / ρ ^ (N + 1) * (T ℝ k).eval ((ρ + ρ⁻¹) / 2)) := mul_le_mul_of_nonneg_left h7 ha
          _ = _ := by ring
      · simp only [eval_add, eval_mul, eval_C]
        have : 0 ≤ a * (T ℝ k).eval √2 := mul_nonneg ha (by linarith)
        linarith

/-- `f` can be approached on `[-w, X]` by polynomials of degree at most `N`, up to `τ`, whose terms add up to at most `A`. -/
def NearPoly (f : ℝ → ℝ) (N : ℕ) (w τ A : ℝ) : Prop :=
  ∀ γ > 0, ∃ Q : ℝ[X], Q.degree < (N + 1 : ℕ) ∧ (∀ t, |t| ≤ w → |Q.eval t - f t| ≤ τ + γ) ∧ absSum (N + 1) Q w ≤ A

theorem power_cut (m N : ℕ) {ρ w : ℝ} (hρ : silver ≤ ρ) (hw : 0 < w) :
    ∃ Q : ℝ[X], Q.degree < (N + 1 : ℕ) ∧ (∀ t, |t| ≤ w → |t ^ m - Q.eval t| ≤ 2 / ρ ^ (N + 1) * (w * ((ρ + ρ⁻¹) / 2)) ^ m) ∧
      absSum (N + 1) Q w ≤ w ^ m + 2 * (√2 / ((ρ + ρ⁻¹) / 2)) ^ (N + 1) * (w * ((ρ + ρ⁻¹) / 2)) ^ m := by
  have hρ1 : 1 ≤ ρ := one_le_silver.trans hρ
  have hρ0 : 0 < ρ := by linarith
  set σ := (ρ + ρ⁻¹) / 2 with hσ
  have hσ2 : √2 ≤ σ := by
    rw [← silver_joukowski, hσ]
    have hs := silver_pos
    have hs1 := one_le_silver
    rw [div_le_div_iff_of_pos_right (by norm_num)]
    have : ρ + ρ⁻¹ - (silver + silver⁻¹) = (ρ - silver) * (ρ * silver - 1) / (ρ * silver) := by field_simp; ring
    have : 0 ≤ ρ + ρ⁻¹ - (silver + silver⁻¹) := by
      rw [this]
      have h1 : 0 ≤ ρ - silver := by linarith
      have h2 : 0 ≤ ρ * silver - 1 := by nlinarith
      positivity
    linarith
  have hσ0 : 0 < σ := lt_of_lt_of_le (by positivity) hσ2
  have key : ∃ Q : ℝ[X], Q.degree < (N + 1 : ℕ) ∧ (∀ t, |t| ≤ 1 → |t ^ m - Q.eval t| ≤ 2 / ρ ^ (N + 1) * σ ^ m) ∧
      absSum (N + 1) Q 1 ≤ 1 + 2 * (√2 / σ) ^ (N + 1) * σ ^ m := by
    by_cases hm : m ≤ N
    · refine ⟨X ^ m, ?_, fun t ht => by simp; positivity, (absSum_X_pow_le _ _).trans ?_⟩
      · rw [degree_X_pow]; exact_mod_cast Nat.lt_succ_of_le hm
      · have : 0 ≤ 2 * (√2 / σ) ^ (N + 1) * σ ^ m := by positivity
        linarith
    · obtain ⟨Q, h1, h2, h3⟩ := (chebPos_X_pow m).cut N hρ1
      refine ⟨Q, h1, fun t ht => by simpa using h2 t ht, h3.trans ?_⟩
      simp only [eval_pow, eval_X]
      have h4 : (√2 / σ) ^ m ≤ (√2 / σ) ^ (N + 1) := pow_le_pow_of_le_one (by positivity) ((div_le_one hσ0).2 hσ2) (by omega)
      rw [div_pow, div_le_iff₀ (by positivity)] at h4
      nlinarith
  obtain ⟨Q, h1, h2, h3⟩ := key
  refine ⟨C (w ^ m) * Q.comp (C w⁻¹ * Polynomial.X), ?_, fun t ht => ?_, ?_⟩
  · refine lt_of_le_of_lt (deg_C_mul_le _ _) ?_
    rw [degree_lt_iff_coeff_zero] at h1 ⊢
    intro i hi
    rw [comp_C_mul_X_coeff, h1 i hi, zero_mul]
  · have h4 := h2 (w⁻¹ * t) (by rw [abs_mul, abs_of_pos (inv_pos.2 hw), inv_mul_le_iff₀ hw, mul_one]; exact ht)
    simp only [eval_mul, eval_C, eval_comp, eval_X]
    rw [show t ^ m - w ^ m * Q.eval (w⁻¹ * t) = w ^ m * ((w⁻¹ * t) ^ m - Q.eval (w⁻¹ * t)) by
      rw [mul_sub, ← mul_pow, mul_inv_cancel_left₀ hw.ne'], abs_mul, abs_of_pos (pow_pos hw m), mul_pow w σ]
    calc w ^ m * |(w⁻¹ * t) ^ m - Q.eval (w⁻¹ * t)| ≤ w ^ m * (2 / ρ ^ (N + 1) * σ ^ m) := mul_le_mul_of_nonneg_left h4 (by positivity)
      _ = _ := by ring
  · rw [absSum_C_mul, abs_of_pos (pow_pos hw m)]
    have e : absSum (N + 1) (Q.comp (C w⁻¹ * Polynomial.X)) w = absSum (N + 1) Q 1 := by
      unfold absSum
      refine Finset.sum_congr rfl fun i _ => ?_
      rw [comp_C_mul_X_coeff, abs_mul, abs_pow, abs_of_pos (inv_pos.2 hw), mul_assoc, ← mul_pow, inv_mul_cancel₀ hw.ne']
    rw [e, mul_pow]
    calc w ^ m * absSum (N + 1) Q 1 ≤ w ^ m * (1 + 2 * (√2 / σ) ^ (N + 1) * σ ^ m) := mul_le_mul_of_nonneg_left h3 (by positivity)
      _ = _ := by ring

/-- A power series that converges well beyond the interval. -/
theorem nearPoly_of_series {ι : Type} (f : ℝ → ℝ) (c : ι → ℝ) (e : ι → ℕ) (N : ℕ) {ρ w S₀ S : ℝ} (hρ : silver ≤ ρ) (hw : 0 < w)
    (hf : ∀ t, |t| ≤ w → HasSum (fun j => c j * t ^ e j) (f t))
    (h0 : HasSum (fun j => |c j| * w ^ e j) S₀) (hS : HasSum (fun j => |c j| * (w * ((ρ + ρ⁻¹) / 2)) ^ e j) S) :
    NearPoly f N w (2 / ρ ^ (N + 1) * S) (S₀ + 2 * (√2 / ((ρ + ρ⁻¹) / 2)) ^ (N + 1) * S) := by
  intro γ hγ
  have hρ0 : 0 < ρ := lt_of_lt_of_le silver_pos hρ
  set σ := (ρ + ρ⁻¹) / 2 with hσ
  have hσ0 : 0 < σ := by positivity
  obtain ⟨L, hL⟩ := (h0.eventually (lt_mem_nhds (show S₀ - γ < S₀ by linarith))).exists
  choose Q hQ using fun j => power_cut (e j) N hρ hw
  refine ⟨∑ j ∈ L, C (c j) * Q j, ?_, fun t ht => ?_, ?_⟩
  · refine lt_of_le_of_lt (degree_sum_le _ _) ?_
    rw [Finset.sup_lt_iff (by exact WithBot.bot_lt_coe _)]
    exact fun j _ => lt_of_le_of_lt (deg_C_mul_le _ _) (hQ j).1
  · have hft := hf t ht
    have htail : |f t - ∑ j ∈ L, c j * t ^ e j| ≤ γ := by
      have a1 := L.hasSum_iff_compl.1 hft
      have a2 := L.hasSum_iff_compl.1 h0
      have a3 : ‖f t - ∑ j ∈ L, c j * t ^ e j‖ ≤ S₀ - ∑ j ∈ L, |c j| * w ^ e j := by
        rw [← a1.tsum_eq, ← a2.tsum_eq]
        refine tsum_of_norm_bounded a2.summable.hasSum fun j => ?_
        rw [Real.norm_eq_abs, abs_mul, abs_pow]
        exact mul_le_mul_of_nonneg_left (pow_le_pow_left₀ (abs_nonneg _) ht _) (abs_nonneg _)
      rw [Real.norm_eq_abs] at a3
      linarith
    have hcut : |∑ j ∈ L, c j * t ^ e j - (∑ j ∈ L, C (c j) * Q j).eval t| ≤ 2 / ρ ^ (N + 1) * S := by
      rw [eval_finsetSum, ← Finset.sum_sub_distrib]
      refine (Finset.abs_sum_le_sum_abs _ _).trans ?_
      have : ∀ j ∈ L, |c j * t ^ e j - (C (c j) * Q j).eval t| ≤ 2 / ρ ^ (N + 1) * (|c j| * (w * σ) ^ e j) := by
        intro j _
        rw [eval_mul, eval_C, ← mul_sub, abs_mul]
        calc |c j| * |t ^ e j - (Q j).eval t| ≤ |c j| * (2 / ρ ^ (N + 1) * (w * σ) ^ e j) := mul_le_mul_of_nonneg_left ((hQ j).2.1 t ht) (abs_nonneg _)
          _ = _ := by ring
      refine (Finset.sum_le_sum this).trans ?_
      rw [← Finset.mul_sum]
      exact mul_le_mul_of_nonneg_left (sum_le_hasSum _ (fun j _ => by positivity) hS) (by positivity)
    have := abs_sub_le ((∑ j ∈ L, C (c j) * Q j).eval t) (∑ j ∈ L, c j * t ^ e j) (f t)
    have t1 := abs_sub_comm (∑ j ∈ L, c j * t ^ e j) (f t)
    have t2 := abs_sub_comm ((∑ j ∈ L, C (c j) * Q j).eval t) (∑ j ∈ L, c j * t ^ e j)
    linarith
  · refine (absSum_sum _ _ _ hw.le).trans ?_
    have : ∀ j ∈ L, absSum (N + 1) (C (c j) * Q j) w ≤ |c j| * w ^ e j + 2 * (√2 / σ) ^ (N + 1) * (|c j| * (w * σ) ^ e j) := by
      intro j _
      rw [absSum_C_mul]
      calc |c j| * absSum (N + 1) (Q j) w ≤ |c j| * (w ^ e j + 2 * (√2 / σ) ^ (N + 1) * (w * σ) ^ e j) := mul_le_mul_of_nonneg_left (hQ j).2.2 (abs_nonneg _)
        _ = _ := by ring
    refine (Finset.sum_le_sum this).trans ?_
    rw [Finset.sum_add_distrib, ← Finset.mul_sum]
    exact add_le_add (sum_le_hasSum _ (fun j _ => by positivity) h0) (mul_le_mul_of_nonneg_left (sum_le_hasSum _ (fun j _ => by positivity) hS) (by positivity))

/-! ## Coefficients of a bounded polynomial -/

theorem T_leading (n : ℕ) : (T ℝ n).coeff n ≠ 0 := by
  have h1 := natDegree_T (R := ℝ) n
  rw [Int.natAbs_natCast] at h1
  have := leadingCoeff_ne_zero.2 (T_ne_zero (R := ℝ) n)
  rwa [leadingCoeff, h1] at this

theorem cheb_expand (n : ℕ) (R : ℝ[X]) (h : R.degree < n) : ∃ a : ℕ → ℝ, R = ∑ k ∈ Finset.range n, C (a k) * T ℝ k := by
  induction n generalizing R with
  | zero =>
    refine ⟨0, ?_⟩
    have : R = 0 := by
      rw [← degree_eq_bot]
      by_contra hne
      rw [degree_eq_natDegree (by simpa using hne)] at h
      exact absurd (by exact_mod_cast h) (Nat.not_lt_zero R.natDegree)
    simp [this]
  | succ n ih =>
    set b := R.coeff n / (T ℝ n).coeff n with hb
    have hd : (R - C b * T ℝ n).degree < n := by
      rw [degree_lt_iff_coeff_zero] at h ⊢
      intro m hm
      rw [coeff_sub, coeff_C_mul]
      rcases Nat.lt_or_ge n m with h1 | h1
      · rw [h m (by omega), coeff_eq_zero_of_natDegree_lt (by rw [natDegree_T, Int.natAbs_natCast]; exact h1)]; simp
      · obtain rfl : m = n := by omega
        rw [hb, div_mul_cancel₀ _ (T_leading m), sub_self]
    obtain ⟨a, ha⟩ := ih _ hd
    refine ⟨fun k => if k = n then b else a k, ?_⟩
    rw [Finset.sum_range_succ]
    simp only [if_true]
    have : ∑ k ∈ Finset.range n, C (if k = n then b else a k) * T ℝ k = ∑ k ∈ Finset.range n, C (a k) * T ℝ k :=
      Finset.sum_congr rfl fun k hk => by rw [if_neg (by have := Finset.mem_range.1 hk; omega)]
    rw [this, ← ha]; ring

theorem cheb_coeff_bound (n : ℕ) (a : ℕ → ℝ) (δ : ℝ) (h : ∀ t, |t| ≤ 1 → |(∑ k ∈ Finset.range n, C (a k) * T ℝ k).eval t| ≤ δ) (j : ℕ) (hj : j < n) :
    |a j| ≤ 2 * δ := by
  have hδ : 0 ≤ δ := (abs_nonneg _).trans (h 0 (by simp))
  have hint : ∀ p : ℝ[X], MeasureTheory.Integrable (fun x => p.eval x) measureT := fun p => integrable_measureT p.continuous.continuousOn
  have e1 : ∫ x, (∑ k ∈ Finset.range n, C (a k) * T ℝ k).eval x * (T ℝ j).eval x ∂measureT = a j * ∫ x, (T ℝ j).eval x * (T ℝ j).eval x ∂measureT := by
    have : ∀ x, (∑ k ∈ Finset.range n, C (a k) * T ℝ k).eval x * (T ℝ j).eval x = ∑ k ∈ Finset.range n, a k * ((T ℝ k).eval x * (T ℝ j).eval x) := by
      intro x
      rw [eval_finsetSum, Finset.sum_mul]
      exact Finset.sum_congr rfl fun k _ => by rw [eval_mul, eval_C, mul_assoc]
    simp_rw [this]
    rw [MeasureTheory.integral_finsetSum _ (fun k _ => by
      have := (hint (T ℝ k * T ℝ j)).const_mul (a k)
      simpa [eval_mul] using this), Finset.sum_eq_single j]
    · rw [MeasureTheory.integral_const_mul]
    · intro k _ hk
      rw [MeasureTheory.integral_const_mul, integral_eval_T_real_mul_eval_T_real_measureT_of_ne hk, mul_zero]
    · intro h; exact absurd (Finset.mem_range.2 hj) h
  have e2 : |∫ x, (∑ k ∈ Finset.range n, C (a k) * T ℝ k).eval x * (T ℝ j).eval x ∂measureT| ≤ δ * Real.pi := by
    rw [integral_measureT_eq_integral_cos (f := fun x => (∑ k ∈ Finset.range n, C (a k) * T ℝ k).eval x * (T ℝ j).eval x), ← Real.norm_eq_abs]
    have := intervalIntegral.norm_integral_le_of_norm_le_const (a := 0) (b := Real.pi) (C := δ)
      (f := fun θ => (∑ k ∈ Finset.range n, C (a k) * T ℝ k).eval (Real.cos θ) * (T ℝ j).eval (Real.cos θ)) (by
        intro θ _
        rw [Real.norm_eq_abs, abs_mul]
        have h1 := h _ (Real.abs_cos_le_one θ)
        have h2 := abs_eval_T_real_le_one j (Real.abs_cos_le_one θ)
        nlinarith [abs_nonneg ((T ℝ j).eval (Real.cos θ)), abs_nonneg ((∑ k ∈ Finset.range n, C (a k) * T ℝ k).eval (Real.cos θ))])
    rwa [sub_zero, abs_of_pos Real.pi_pos] at this
  rw [e1] at e2
  have hpi := Real.pi_pos
  rcases Nat.eq_zero_or_pos j with rfl | hj0
  · have h0 : ∫ x, (T ℝ ((0 : ℕ) : ℤ)).eval x * (T ℝ ((0 : ℕ) : ℤ)).eval x ∂measureT = Real.pi := integral_eval_T_real_mul_self_measureT_zero
    rw [h0, abs_mul, abs_of_pos hpi] at e2
    have := le_of_mul_le_mul_right e2 hpi
    linarith
  · rw [integral_T_real_mul_self_measureT_of_ne_zero (by omega), abs_mul, abs_of_pos (by positivity : 0 < Real.pi / 2)] at e2
    have : |a j| * (Real.pi / 2) ≤ (2 * δ) * (Real.pi / 2) := by linarith
    exact le_of_mul_le_mul_right this (by positivity)

theorem absSum_scale (K : ℕ) (Q : ℝ[X]) {w : ℝ} (hw : 0 < w) : absSum K (Q.comp (C w * X)) 1 = absSum K Q w := by
  unfold absSum
  refine Finset.sum_congr rfl fun i _ => ?_
  rw [comp_C_mul_X_coeff, abs_mul, abs_pow, abs_of_pos hw, one_pow, mul_one]

/-- A polynomial that is small on an interval has small terms. -/
theorem absSum_of_bounded (N : ℕ) (R : ℝ[X]) (hR : R.degree < (N + 1 : ℕ)) {w δ : ℝ} (hw : 0 < w) (h : ∀ t, |t| ≤ w → |R.eval t| ≤ δ) :
    absSum (N + 1) R w ≤ 2 * δ * ∑ k ∈ Finset.range (N + 1), silver ^ k := by
  have hd : (R.comp (C w * X)).degree < (N + 1 : ℕ) := by
    rw [degree_lt_iff_coeff_zero] at hR ⊢
    intro i hi
    rw [comp_C_mul_X_coeff, hR i hi, zero_mul]
  obtain ⟨a, ha⟩ := cheb_expand (N + 1) _ hd
  have hb := cheb_coeff_bound (N + 1) a δ (by
    intro t ht
    rw [← ha]
    simp only [eval_comp, eval_mul, eval_C, eval_X]
    refine h _ ?_
    rw [abs_mul, abs_of_pos hw]
    nlinarith)
  rw [← absSum_scale _ _ hw, ha, Finset.mul_sum]
  refine (absSum_sum _ _ _ zero_le_one).trans (Finset.sum_le_sum fun k hk => ?_)
  rw [absSum_C_mul]
  exact mul_le_mul (hb k (Finset.mem_range.1 hk)) (absSum_T _ k) (absSum_nonneg _ _ zero_le_one) ((abs_nonneg _).trans (hb k (Finset.mem_range.1 hk)))

/-- A polynomial close to a function that is close to polynomials with small terms has small terms. -/
theorem NearPoly.absSum_le {f : ℝ → ℝ} {N : ℕ} {w τ A : ℝ} (h : NearPoly f N w τ A) (hw : 0 < w) (P : ℝ[X]) (hP : P.degree < (N + 1 : ℕ)) {ε : ℝ}
    (hε : ∀ t, |t| ≤ w → |P.eval t - f t| ≤ ε) : absSum (N + 1) P w ≤ A + 2 * (ε + τ) * ∑ k ∈ Finset.range (N + 1), silver ^ k := by
  have hsum : 0 < ∑ k ∈ Finset.range (N + 1), silver ^ k := Finset.sum_pos (fun k _ => pow_pos silver_pos k) ⟨0, by simp⟩
  refine le_of_forall_pos_le_add fun γ hγ => ?_
  obtain ⟨Q, h1, h2, h3⟩ := h (γ / (2 * ∑ k ∈ Finset.range (N + 1), silver ^ k)) (by positivity)
  have h4 := absSum_of_bounded N (P - Q) (lt_of_le_of_lt (degree_sub_le _ _) (max_lt hP h1)) hw
    (δ := ε + (τ + γ / (2 * ∑ k ∈ Finset.range (N + 1), silver ^ k))) (fun t ht => by
      rw [eval_sub]
      have := abs_sub_le (P.eval t) (f t) (Q.eval t)
      rw [abs_sub_comm (f t)] at this
      linarith [hε t ht, h2 t ht])
  have h5 := absSum_add (N + 1) (P - Q) Q hw.le
  rw [sub_add_cancel] at h5
  have h6 : 2 * (ε + (τ + γ / (2 * ∑ k ∈ Finset.range (N + 1), silver ^ k))) * ∑ k ∈ Finset.range (N + 1), silver ^ k =
      2 * (ε + τ) * (∑ k ∈ Finset.range (N + 1), silver ^ k) + γ := by field_simp; ring
  linarith

end Verif

import Verif.Lemmas.EncPoly
import Verif.Props.ApproxSharp

/-!
# Bounds of the coefficients

A polynomial that is small on an interval has small coefficients; so the coefficients that the library computes are close to those of the interpolant that the
certificate describes.
-/

namespace Verif
open Dec Polynomial Polynomial.Chebyshev

theorem T_coeff_zero_one (k : ℕ) : |(T ℝ k).coeff 0| ≤ 1 ∧ |(T ℝ k).coeff 1| ≤ k := by
  induction k using Nat.twoStepInduction with
  | zero => simp [coeff_one]
  | one => simp
  | more k h1 h2 =>
    have e : T ℝ ((k + 2 : ℕ) : ℤ) = 2 * (X * T ℝ ((k + 1 : ℕ) : ℤ)) - T ℝ (k : ℤ) := by
      have := T_add_two ℝ (k : ℤ)
      push_cast
      rw [this]
      ring
    rw [e]
    have c0 : ∀ p : ℝ[X], (2 * (X * p)).coeff 0 = 0 := fun p => by
      rw [show (2 : ℝ[X]) = Polynomial.C 2 from (map_ofNat Polynomial.C 2).symm, Polynomial.coeff_C_mul, Polynomial.coeff_X_mul_zero, mul_zero]
    have c1 : ∀ p : ℝ[X], (2 * (X * p)).coeff 1 = 2 * p.coeff 0 := fun p => by
      rw [show (2 : ℝ[X]) = Polynomial.C 2 from (map_ofNat Polynomial.C 2).symm, Polynomial.coeff_C_mul]
      exact congrArg (2 * ·) (Polynomial.coeff_X_mul p 0)
    rw [Polynomial.coeff_sub, Polynomial.coeff_sub, c0, c1, zero_sub, abs_neg]
    refine ⟨h1.1, ?_⟩
    have := abs_le.1 h2.1
    have := abs_le.1 h1.2
    have e3 : ((k + 2 : ℕ) : ℝ) = k + 2 := by push_cast; ring
    rw [e3, abs_le]
    constructor <;> linarith

/-- What being within `ρ` says of the coefficients. -/
def coefDelta (N : ℕ) (ρ : ℚ) (i : ℕ) : ℚ := 2 * ρ * (if i = 0 then ((N : ℚ) + 1) else if i = 1 then ((N : ℚ) + 1) ^ 2 else (24143 / 10000 : ℚ) ^ (N + 1))

theorem coeff_of_bounded (N : ℕ) (R : ℝ[X]) (hR : R.degree < (N + 1 : ℕ)) {W : ℝ} {ρ : ℚ} (hW : 0 < W) (h : ∀ t, |t| ≤ W → |R.eval t| ≤ ρ) (i : ℕ) (hi : i ≤ N) :
    |R.coeff i| * W ^ i ≤ coefDelta N ρ i := by
  have hρ : (0 : ℝ) ≤ ρ := (abs_nonneg _).trans (h 0 (by simp [hW.le]))
  have hd : (R.comp (Polynomial.C W * X)).degree < (N + 1 : ℕ) := by
    rw [degree_lt_iff_coeff_zero] at hR ⊢
    intro i hi
    rw [comp_C_mul_X_coeff, hR i hi, zero_mul]
  obtain ⟨a, ha⟩ := cheb_expand (N + 1) _ hd
  have hb := cheb_coeff_bound (N + 1) a ρ (by
    intro t ht
    rw [← ha]
    simp only [eval_comp, eval_mul, Polynomial.eval_C, eval_X]
    refine h _ ?_
    rw [abs_mul, abs_of_pos hW]
    nlinarith)
  have e1 : |R.coeff i| * W ^ i = |∑ k ∈ Finset.range (N + 1), a k * (T ℝ k).coeff i| := by
    rw [← abs_of_pos (pow_pos hW i), ← abs_mul, ← comp_C_mul_X_coeff, ha, Polynomial.finsetSum_coeff]
    simp only [Polynomial.coeff_C_mul]
  have e2 : ∀ B : ℕ → ℝ, (∀ k < N + 1, |(T ℝ k).coeff i| ≤ B k) → |R.coeff i| * W ^ i ≤ 2 * ρ * ∑ k ∈ Finset.range (N + 1), B k := by
    intro B hB
    rw [e1, Finset.mul_sum]
    refine (Finset.abs_sum_le_sum_abs _ _).trans (Finset.sum_le_sum fun k hk => ?_)
    rw [abs_mul]
    exact mul_le_mul (hb k (Finset.mem_range.1 hk)) (hB k (Finset.mem_range.1 hk)) (abs_nonneg _) (by positivity)
  unfold coefDelta
  rcases Nat.lt_or_ge i 1 with h0 | h0
  · obtain rfl : i = 0 := by omega
    refine (e2 (fun _ => 1) fun k _ => (T_coeff_zero_one k).1).trans (le_of_eq ?_)
    rw [if_pos rfl]
    simp
  rcases Nat.lt_or_ge i 2 with h1 | h1
  · obtain rfl : i = 1 := by omega
    refine (e2 (fun _ => N + 1) fun k hk => (T_coeff_zero_one k).2.trans (by exact_mod_cast hk.le)).trans (le_of_eq ?_)
    rw [if_neg one_ne_zero, if_pos rfl]
    push_cast
    simp only [Finset.sum_const, Finset.card_range, nsmul_eq_mul, Nat.cast_add, Nat.cast_one]
    ring
  · rw [if_neg (by omega), if_neg (by omega)]
    push_cast
    refine (e2 (fun k => silver ^ k) fun k hk => ?_).trans ?_
    · refine le_trans ?_ (absSum_T (N + 1) k)
      unfold absSum
      have := Finset.single_le_sum (f := fun i => |(T ℝ k).coeff i| * 1 ^ i) (fun i _ => by positivity) (Finset.mem_range.2 (by omega : i < N + 1))
      simpa using this
    · refine mul_le_mul_of_nonneg_left ?_ (by positivity)
      have hs := silver_bounds
      refine le_trans ?_ (pow_le_pow_left₀ silver_pos.le hs.2 (N + 1))
      have : ∀ n : ℕ, ∑ k ∈ Finset.range n, silver ^ k ≤ silver ^ n := by
        intro n
        induction n with
        | zero => simp
        | succ n ih =>
          rw [Finset.sum_range_succ, pow_succ]
          nlinarith [pow_pos silver_pos n, silver_bounds.1]
      exact this _

/-- The coefficients are close to those of a polynomial that the sum is close to. -/
theorem coef_close (terms : List Dec) (parity : Parity) (N : ℕ) (Q : ℝ[X]) (hQ : Q.degree < (N + 1 : ℕ)) {W : ℝ} {ρ : ℚ} (hW : 0 < W)
    (h : ∀ t, |t| ≤ W → |∑ i ∈ Finset.range (N + 1), (if parity.keeps i then (valAt terms i : ℝ) * t ^ i else 0) - Q.eval t| ≤ ρ) (i : ℕ) (hi : i ≤ N) (hk : parity.keeps i) :
    |(valAt terms i : ℝ) - Q.coeff i| * W ^ i ≤ coefDelta N ρ i := by
  set a : ℕ → ℝ := fun i => if parity.keeps i then (valAt terms i : ℝ) else 0 with ha
  set P : ℝ[X] := ∑ i ∈ Finset.range (N + 1), monomial i (a i) with hP
  have hcoeff : ∀ i < N + 1, P.coeff i = a i := by
    intro i hi
    rw [hP, Polynomial.finsetSum_coeff]
    simp only [coeff_monomial]
    rw [Finset.sum_ite_eq' (Finset.range (N + 1)) i, if_pos (Finset.mem_range.2 hi)]
  have hdeg : P.degree < (N + 1 : ℕ) := by
    rw [degree_lt_iff_coeff_zero]
    intro i hi
    rw [hP, Polynomial.finsetSum_coeff]
    refine Finset.sum_eq_zero fun j hj => ?_
    rw [coeff_monomial, if_neg (by have := Finset.mem_range.1 hj; omega)]
  have := coeff_of_bounded N (P - Q) (lt_of_le_of_lt (degree_sub_le _ _) (max_lt hdeg hQ)) hW (fun t ht => by
    rw [eval_sub, hP, eval_finsetSum]
    simp only [eval_monomial, ha]
    simpa only [ite_mul, zero_mul] using h t ht) i hi
  rw [Polynomial.coeff_sub, hcoeff i (by omega), ha] at this
  simpa only [hk, if_true] using this

/-- The coefficient `i` lies in the box. -/
def InBox (B : List (ℚ × ℚ)) (parity : Parity) (N : ℕ) (terms : List Dec) : Prop :=
  ∀ i ≤ N, parity.keeps i → ((B.getD i (0, 0)).1 : ℝ) ≤ valAt terms i ∧ (valAt terms i : ℝ) ≤ (B.getD i (0, 0)).2

/-- The box holds the coefficients of the interpolant with room for the decimals. -/
def ChebBudget.boxOkWith (b : ChebBudget) (parity : Parity) (κ c : ℚ × ℚ) (B : List (ℚ × ℚ)) (ρ : ℚ) (m : List ℤ) : Prop :=
  ∀ i ∈ List.range (b.N + 1), parity.keeps i →
    (B.getD i (0, 0)).1 * b.hi ^ i + coefDelta b.N ρ i ≤ min (κ.1 * (zAt m i / 2 ^ b.s)) (κ.2 * (zAt m i / 2 ^ b.s)) + (if i = 0 then c.1 else 0) ∧
    max (κ.1 * (zAt m i / 2 ^ b.s)) (κ.2 * (zAt m i / 2 ^ b.s)) + (if i = 0 then c.2 else 0) + coefDelta b.N ρ i ≤ (B.getD i (0, 0)).2 * b.hi ^ i

instance (b : ChebBudget) (parity : Parity) (κ c : ℚ × ℚ) (B : List (ℚ × ℚ)) (ρ : ℚ) (m : List ℤ) : Decidable (b.boxOkWith parity κ c B ρ m) := by
  unfold ChebBudget.boxOkWith; infer_instance

def ChebBudget.boxOk (b : ChebBudget) (parity : Parity) (κ c : ℚ × ℚ) (B : List (ℚ × ℚ)) : Prop :=
  0 < b.hi ∧ (monoList b.N b.l).length ≤ b.N + 1 ∧ b.boxOkWith parity κ c B b.residual (monoList b.N b.l)

instance (b : ChebBudget) (parity : Parity) (κ c : ℚ × ℚ) (B : List (ℚ × ℚ)) : Decidable (b.boxOk parity κ c B) := by
  unfold ChebBudget.boxOk; infer_instance

theorem zPoly_coeff (l : List ℤ) (i : ℕ) : (zPoly l).coeff i = zAt l i := by
  induction l generalizing i with
  | nil => simp [zPoly, zAt]
  | cons a l ih =>
    rw [zPoly, Polynomial.coeff_add]
    cases i with
    | zero => simp [zAt]
    | succ i =>
      rw [Polynomial.coeff_C_succ, Polynomial.coeff_X_mul, ih, zero_add]
      simp [zAt]

theorem between_mul {a b κ x : ℝ} (h1 : a ≤ κ) (h2 : κ ≤ b) : min (a * x) (b * x) ≤ κ * x ∧ κ * x ≤ max (a * x) (b * x) := by
  rcases le_total 0 x with hx | hx
  · exact ⟨(min_le_left _ _).trans (mul_le_mul_of_nonneg_right h1 hx), (mul_le_mul_of_nonneg_right h2 hx).trans (le_max_right _ _)⟩
  · exact ⟨(min_le_right _ _).trans (mul_le_mul_of_nonpos_right h2 hx), (mul_le_mul_of_nonpos_right h1 hx).trans (le_max_left _ _)⟩

/-- The interpolant has the symmetry of the request. -/
theorem ChebBudget.Fits.interpolant_parity {b : ChebBudget} {ext : BdExt} {s : ApproxSpec} {lo hi : Dec} {f : ℝ → ℝ} {κ c : ℝ} (h : b.Fits ext s lo hi f κ c)
    (hpl : ParityList s.parity (monoList b.N b.l)) : ParityFits s.parity lo hi (b.interpolant κ c) := by
  have hc0 := h.shift_odd
  unfold ParityFits ChebBudget.interpolant
  generalize s.parity = p at hpl hc0
  cases p with
  | neither => trivial
  | odd => exact ⟨by rw [h.lo_eq, h.hi_eq], fun t => by rw [neg_div, zPoly_odd hpl, hc0 rfl]; ring⟩
  | even => exact ⟨by rw [h.lo_eq, h.hi_eq], fun t => by rw [neg_div, zPoly_even hpl]⟩

/-- The terms of a request with a certificate, with bounds of the coefficients. -/
theorem ChebBudget.Fits.boxed {b : ChebBudget} {ext : BdExt} {s : ApproxSpec} {lo hi : Dec} {f : ℝ → ℝ} {κ c : ℝ} (h : b.Fits ext s lo hi f κ c) (hb : b.ok)
    {κ' c' : ℚ × ℚ} {B : List (ℚ × ℚ)} (hB : b.boxOk s.parity κ' c' B) (hκ : (κ'.1 : ℝ) ≤ κ ∧ κ ≤ κ'.2) (hc : (c'.1 : ℝ) ≤ c ∧ c ≤ c'.2) :
    ∃ r terms, approx ext s.target (b.N + 1) lo hi [s.var] s.parity b.n = .ok r ∧ mulAddPolynomial terms [s.var] s.parity = .ok r ∧ terms.length = b.N + 1 ∧
      InBox B s.parity b.N terms ∧
      ∀ t : ℝ, |t| ≤ b.hi → |∑ i ∈ Finset.range (b.N + 1), (if s.parity.keeps i then (valAt terms i : ℝ) * t ^ i else 0) - f t| ≤ b.ε ∧
        (ParityList s.parity (monoList b.N b.l) → |∑ i ∈ Finset.range (b.N + 1), (if s.parity.keeps i then (valAt terms i : ℝ) * t ^ i else 0) - b.interpolant κ c t| ≤ b.residual) := by
  obtain ⟨⟨terms, r, h1, h2, h3, h4⟩, -⟩ := b.sound hb ext s.target [s.var] s.parity lo hi h.lo_eq h.hi_eq h.accepts f κ c h.factor h.shift h.near h.samples
  have hmem : ∀ t : ℝ, |t| ≤ b.hi → t ∈ Set.Icc (lo.val : ℝ) hi.val := by
    intro t ht
    rw [h.lo_eq, h.hi_eq]
    push_cast
    exact abs_le.1 ht
  refine ⟨r, terms, h1, h2, h3, ?_, fun t ht => ⟨parity_sum h.parity b.N (fun i => (valAt terms i : ℝ)) (fun t ht => (h4 t ht).1) (hmem t ht), fun hpl =>
    parity_sum (h.interpolant_parity hpl) b.N (fun i => (valAt terms i : ℝ)) (fun t ht => ?_) (hmem t ht)⟩⟩
  rotate_left
  · have := (h4 t ht).2
    unfold ChebBudget.interpolant ChebBudget.residual
    push_cast
    exact this
  obtain ⟨hhi, hlen, hB⟩ := hB
  have hhi' : (0 : ℝ) < b.hi := by exact_mod_cast hhi
  set m := monoList b.N b.l with hm
  set Q : ℝ[X] := Polynomial.C (κ / 2 ^ b.s) * (zPoly m).comp (Polynomial.C ((b.hi : ℝ)⁻¹) * X) + Polynomial.C c with hQ
  have hev : ∀ t : ℝ, Q.eval t = κ * ((zPoly m).eval (t / b.hi) / 2 ^ b.s) + c := by
    intro t
    simp only [hQ, eval_add, eval_mul, Polynomial.eval_C, eval_comp, eval_X]
    rw [inv_mul_eq_div]
    ring
  have hco : ∀ i, Q.coeff i = κ * (zAt m i / 2 ^ b.s) * ((b.hi : ℝ)⁻¹) ^ i + (if i = 0 then c else 0) := by
    intro i
    rw [hQ, Polynomial.coeff_add, Polynomial.coeff_C_mul, comp_C_mul_X_coeff, zPoly_coeff, Polynomial.coeff_C]
    ring
  have hdeg : Q.degree < (b.N + 1 : ℕ) := by
    rw [degree_lt_iff_coeff_zero]
    intro i hi
    rw [hco, if_neg (by omega), zAt, List.getD_eq_default _ _ (by omega)]
    simp
  intro i hi hk
  obtain ⟨b1, b2⟩ := hB i (List.mem_range.2 (by omega)) hk
  have key := coef_close terms .neither b.N Q hdeg (W := b.hi) (ρ := b.residual) hhi' (fun t ht => by
    have := (h4 t (hmem t ht)).2
    rw [hev]
    unfold ChebBudget.residual
    push_cast
    simp only [Parity.keeps, if_true]
    exact this) i hi trivial
  have hp : (0 : ℝ) < (b.hi : ℝ) ^ i := by positivity
  have e1 : ∀ y : ℝ, |y| * (b.hi : ℝ) ^ i = |y * (b.hi : ℝ) ^ i| := fun y => by rw [abs_mul, abs_of_pos hp]
  rw [e1, sub_mul, hco, add_mul, mul_assoc, ← mul_pow, inv_mul_cancel₀ hhi'.ne', one_pow, mul_one] at key
  have hci : (if i = 0 then c else 0) * (b.hi : ℝ) ^ i = if i = 0 then c else 0 := by split_ifs with h0 <;> simp [h0]
  rw [hci] at key
  have c1 := (Rat.cast_le (K := ℝ)).2 b1
  have c2 := (Rat.cast_le (K := ℝ)).2 b2
  push_cast at c1 c2
  have hbt := between_mul (x := (zAt m i / 2 ^ b.s : ℝ)) hκ.1 hκ.2
  rw [abs_le] at key
  have i1 : ((if i = 0 then c'.1 else 0 : ℚ) : ℝ) ≤ if i = 0 then c else 0 := by split_ifs <;> simp [hc.1]
  have i2 : (if i = 0 then c else 0) ≤ ((if i = 0 then c'.2 else 0 : ℚ) : ℝ) := by split_ifs <;> simp [hc.2]
  exact ⟨le_of_mul_le_mul_right (by linarith) hp, le_of_mul_le_mul_right (by linarith) hp⟩

end Verif

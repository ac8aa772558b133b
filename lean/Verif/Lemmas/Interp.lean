import Mathlib.LinearAlgebra.Lagrange
import Mathlib.Analysis.Calculus.LocalExtr.Rolle
import Mathlib.Analysis.Calculus.Deriv.Polynomial
import Mathlib.Data.Finset.Sort

/-!
# The error of polynomial interpolation
-/

namespace Verif

open Polynomial

/-- `F (j + 1)` is the derivative of `F j` on `[a, b]`, for `j < k`. -/
def DerivChain (F : ℕ → ℝ → ℝ) (k : ℕ) (a b : ℝ) : Prop := ∀ j < k, ∀ x ∈ Set.Icc a b, HasDerivAt (F j) (F (j + 1) x) x

/-- Rolle's theorem `k` times. -/
theorem rolle_many (k : ℕ) (G : ℕ → ℝ → ℝ) (a b : ℝ) (hG : DerivChain G k a b) (x : ℕ → ℝ) (hx : ∀ i < k, x i < x (i + 1))
    (hz : ∀ i ≤ k, x i ∈ Set.Icc a b ∧ G 0 (x i) = 0) : ∃ ξ ∈ Set.Icc a b, G k ξ = 0 := by
  induction k generalizing G x with
  | zero => exact ⟨x 0, hz 0 le_rfl⟩
  | succ k ih =>
    have h : ∀ i ≤ k, ∃ y ∈ Set.Ioo (x i) (x (i + 1)), G 1 y = 0 := by
      intro i hi
      have h1 := hz i (by omega)
      have h2 := hz (i + 1) (by omega)
      have hsub : Set.Icc (x i) (x (i + 1)) ⊆ Set.Icc a b := Set.Icc_subset_Icc h1.1.1 h2.1.2
      obtain ⟨y, hy, h0⟩ := exists_hasDerivAt_eq_zero (hx i (by omega))
        (fun t ht => (hG 0 (by omega) t (hsub ht)).continuousAt.continuousWithinAt) (h1.2.trans h2.2.symm)
        (fun t ht => hG 0 (by omega) t (hsub (Set.Ioo_subset_Icc_self ht)))
      exact ⟨y, hy, h0⟩
    choose! y hy h0 using h
    refine ih (fun j => G (j + 1)) (fun j hj t ht => hG (j + 1) (by omega) t ht) y (fun i hi => ?_) (fun i hi => ⟨⟨?_, ?_⟩, h0 i hi⟩)
    · exact (hy i (by omega)).2.trans (hy (i + 1) (by omega)).1
    · exact (hz i (by omega)).1.1.trans (hy i hi).1.le
    · exact (hy i hi).2.le.trans (hz (i + 1) (by omega)).1.2

/-- The same for a set of zeros. -/
theorem rolle_finset (k : ℕ) (G : ℕ → ℝ → ℝ) (a b : ℝ) (hG : DerivChain G k a b) (Z : Finset ℝ) (hZ : Z.card = k + 1)
    (hz : ∀ t ∈ Z, t ∈ Set.Icc a b ∧ G 0 t = 0) : ∃ ξ ∈ Set.Icc a b, G k ξ = 0 := by
  have hlt : ∀ i, min i k < k + 1 := fun i => by omega
  refine rolle_many k G a b hG (fun i => Z.orderEmbOfFin hZ ⟨min i k, hlt i⟩) (fun i hi => ?_) (fun i hi => hz _ (Z.orderEmbOfFin_mem hZ _))
  apply (Z.orderEmbOfFin hZ).strictMono
  rw [Fin.lt_def]
  show min i k < min (i + 1) k
  omega

/-- The iterated derivatives of a polynomial form a chain. -/
theorem polyChain (p : ℝ[X]) (k : ℕ) (a b : ℝ) : DerivChain (fun j x => (derivative^[j] p).eval x) k a b := by
  intro j _ x _
  show HasDerivAt (fun x => (derivative^[j] p).eval x) ((derivative^[j + 1] p).eval x) x
  rw [Function.iterate_succ_apply']
  exact (derivative^[j] p).hasDerivAt x

theorem DerivChain.sub {F G : ℕ → ℝ → ℝ} {k : ℕ} {a b : ℝ} (hF : DerivChain F k a b) (hG : DerivChain G k a b) :
    DerivChain (fun j x => F j x - G j x) k a b := fun j hj x hx => (hF j hj x hx).sub (hG j hj x hx)

theorem DerivChain.mono {F : ℕ → ℝ → ℝ} {k l : ℕ} {a b : ℝ} (hF : DerivChain F k a b) (h : l ≤ k) : DerivChain F l a b :=
  fun j hj => hF j (by omega)

/-- The top coefficient of an interpolating polynomial is a value of the derivative. -/
theorem interp_coeff (F : ℕ → ℝ → ℝ) (s : ℕ) (a b : ℝ) (hF : DerivChain F s a b) (I : Finset ℕ) (hI : I.card = s + 1) (v : ℕ → ℝ)
    (hv : Set.InjOn v I) (hin : ∀ i ∈ I, v i ∈ Set.Icc a b) (p : ℝ[X]) (hp : p.degree < (s + 1 : ℕ)) (he : ∀ i ∈ I, p.eval (v i) = F 0 (v i)) :
    ∃ ξ ∈ Set.Icc a b, F s ξ = s.factorial * p.coeff s := by
  obtain ⟨ξ, hξ, h⟩ := rolle_finset s _ a b (hF.sub (polyChain p s a b)) (I.image v) (by rw [Finset.card_image_of_injOn hv, hI]) (by
    intro t ht
    obtain ⟨i, hi, rfl⟩ := Finset.mem_image.1 ht
    exact ⟨hin i hi, by simp [he i hi]⟩)
  refine ⟨ξ, hξ, ?_⟩
  have hd : derivative^[s] p = C (s.factorial * p.coeff s) := by
    apply Polynomial.ext
    intro m
    rw [coeff_iterate_derivative, coeff_C]
    cases m with
    | zero => simp [Nat.descFactorial_self]
    | succ m =>
      rw [if_neg (by omega), coeff_eq_zero_of_degree_lt (lt_of_lt_of_le hp (by exact_mod_cast (by omega : s + 1 ≤ m + 1 + s)))]
      simp
  have h' : F s ξ - (derivative^[s] p).eval ξ = 0 := h
  rw [hd, eval_C] at h'
  linarith

/-- **The error of interpolation.** -/
theorem interp_error (F : ℕ → ℝ → ℝ) (k : ℕ) (a b : ℝ) (hF : DerivChain F k a b) (v : ℕ → ℝ) (hv : Set.InjOn v (Finset.range k : Set ℕ))
    (hin : ∀ i < k, v i ∈ Set.Icc a b) (p : ℝ[X]) (hp : p.degree < k) (he : ∀ i < k, p.eval (v i) = F 0 (v i)) (B : ℝ)
    (hB : ∀ x ∈ Set.Icc a b, |F k x| ≤ B) (x : ℝ) (hx : x ∈ Set.Icc a b) :
    |F 0 x - p.eval x| ≤ B / k.factorial * ∏ i ∈ Finset.range k, |x - v i| := by
  set w := ∏ i ∈ Finset.range k, (X - C (v i)) with hw
  have hwx : ∀ t, w.eval t = ∏ i ∈ Finset.range k, (t - v i) := by intro t; simp [hw, eval_prod]
  by_cases hn : ∃ i < k, x = v i
  · obtain ⟨i, hi, rfl⟩ := hn
    rw [he i hi, sub_self, abs_zero, Finset.prod_eq_zero (Finset.mem_range.2 hi) (by simp), mul_zero]
  · have hn' : ∀ i < k, x ≠ v i := fun i hi h => hn ⟨i, hi, h⟩
    have hw0 : w.eval x ≠ 0 := by
      rw [hwx, Finset.prod_ne_zero_iff]
      intro i hi
      exact sub_ne_zero.2 (hn' i (Finset.mem_range.1 hi))
    set c := (F 0 x - p.eval x) / w.eval x with hc
    obtain ⟨ξ, hξ, h⟩ := rolle_finset k _ a b (hF.sub (polyChain (p + C c * w) k a b)) (insert x ((Finset.range k).image v)) (by
      rw [Finset.card_insert_of_notMem, Finset.card_image_of_injOn hv, Finset.card_range]
      simp only [Finset.mem_image, Finset.mem_range, not_exists, not_and]
      intro i hi h
      exact hn' i hi h.symm) (by
      intro t ht
      rcases Finset.mem_insert.1 ht with rfl | ht
      · refine ⟨hx, ?_⟩
        simp only [Function.iterate_zero, id_eq, eval_add, eval_mul, eval_C]
        rw [hc, div_mul_cancel₀ _ hw0]
        ring
      · obtain ⟨i, hi, rfl⟩ := Finset.mem_image.1 ht
        have hi := Finset.mem_range.1 hi
        refine ⟨hin i hi, ?_⟩
        simp only [Function.iterate_zero, id_eq, eval_add, eval_mul, eval_C]
        rw [he i hi, hwx, Finset.prod_eq_zero (Finset.mem_range.2 hi) (by simp)]
        ring)
    have hmonic : w.Monic := monic_prod_of_monic _ _ fun i _ => monic_X_sub_C (v i)
    have hdeg : w.natDegree = k := by rw [hw, natDegree_prod_of_monic _ _ fun i _ => monic_X_sub_C (v i)]; simp
    have hd : derivative^[k] (p + C c * w) = C (k.factorial * c) := by
      apply Polynomial.ext
      intro m
      rw [coeff_iterate_derivative, coeff_C, coeff_add, coeff_C_mul]
      cases m with
      | zero =>
        rw [zero_add, coeff_eq_zero_of_degree_lt hp, ← hdeg, hmonic.coeff_natDegree, hdeg]
        simp [Nat.descFactorial_self]
      | succ m =>
        rw [if_neg (by omega), coeff_eq_zero_of_degree_lt (lt_of_lt_of_le hp (by exact_mod_cast (by omega : k ≤ m + 1 + k))),
          coeff_eq_zero_of_natDegree_lt (by omega)]
        simp
    have h' : F k ξ - (derivative^[k] (p + C c * w)).eval ξ = 0 := h
    rw [hd, eval_C] at h'
    have hkf : (0 : ℝ) < k.factorial := by exact_mod_cast k.factorial_pos
    have hcb : |c| ≤ B / k.factorial := by
      rw [le_div_iff₀ hkf]
      have : F k ξ = k.factorial * c := by linarith
      have h2 := hB ξ hξ
      rw [this, abs_mul, abs_of_pos hkf] at h2
      linarith
    have : F 0 x - p.eval x = c * w.eval x := by rw [hc, div_mul_cancel₀ _ hw0]
    rw [this, abs_mul, hwx, Finset.abs_prod]
    exact mul_le_mul_of_nonneg_right hcb (Finset.prod_nonneg fun i _ => abs_nonneg _)

/-! ## Divided differences -/

/-- The divided difference over the points `a, …, a + s`. -/
noncomputable def rdd (x y : ℕ → ℝ) : ℕ → ℕ → ℝ
  | a, 0 => y a
  | a, s + 1 => (rdd x y (a + 1) s - rdd x y a s) / (x (a + s + 1) - x a)

theorem rdd_coeff (x y : ℕ → ℝ) (s a : ℕ) (hx : Set.InjOn x (Finset.Icc a (a + s) : Set ℕ)) :
    (Lagrange.interpolate (Finset.Icc a (a + s)) x y).coeff s = rdd x y a s := by
  induction s generalizing a with
  | zero => simp [rdd]
  | succ s ih =>
    have h1 : a ∈ Finset.Icc a (a + (s + 1)) := by simp
    have h2 : a + (s + 1) ∈ Finset.Icc a (a + (s + 1)) := by simp
    have hne : x a ≠ x (a + (s + 1)) := fun h => by
      have := hx (by simpa using h1) (by simpa using h2) h
      omega
    rw [Lagrange.interpolate_eq_add_interpolate_erase (v := x) (r := y) hx h2 h1 (by omega)]
    have e1 : (Finset.Icc a (a + (s + 1))).erase a = Finset.Icc (a + 1) (a + 1 + s) := by ext i; simp; omega
    have e2 : (Finset.Icc a (a + (s + 1))).erase (a + (s + 1)) = Finset.Icc a (a + s) := by ext i; simp; omega
    rw [e1, e2]
    have i1 := ih (a + 1) (hx.mono (by intro i; simp; omega))
    have i2 := ih a (hx.mono (by intro i; simp; omega))
    have top : ∀ (q : ℝ[X]) (u w : ℝ), q.degree < (s + 1 : ℕ) → (q * Lagrange.basisDivisor u w).coeff (s + 1) = q.coeff s * (u - w)⁻¹ := by
      intro q u w hq
      rw [Lagrange.basisDivisor, ← mul_assoc, mul_comm q, mul_assoc, coeff_C_mul, mul_sub, coeff_sub, coeff_mul_X, coeff_mul_C,
        coeff_eq_zero_of_degree_lt hq]
      ring
    have dl : ∀ b, Set.InjOn x (Finset.Icc b (b + s) : Set ℕ) → (Lagrange.interpolate (Finset.Icc b (b + s)) x y).degree < (s + 1 : ℕ) := by
      intro b hb
      have := Lagrange.degree_interpolate_lt y hb
      rwa [Nat.card_Icc, show b + s + 1 - b = s + 1 by omega] at this
    rw [coeff_add, top _ _ _ (dl _ (hx.mono (by intro i; simp; omega))), top _ _ _ (dl _ (hx.mono (by intro i; simp; omega))), i1, i2, rdd,
      show a + s + 1 = a + (s + 1) by omega]
    have h3 : x (a + (s + 1)) - x a ≠ 0 := sub_ne_zero.2 hne.symm
    have h4 : x a - x (a + (s + 1)) ≠ 0 := sub_ne_zero.2 hne
    field_simp
    ring

/-- Divided differences of a smooth function are bounded by its derivatives. -/
theorem rdd_bound (F : ℕ → ℝ → ℝ) (s a : ℕ) (l u : ℝ) (hF : DerivChain F s l u) (x : ℕ → ℝ) (hx : Set.InjOn x (Finset.Icc a (a + s) : Set ℕ))
    (hin : ∀ i ∈ Finset.Icc a (a + s), x i ∈ Set.Icc l u) (B : ℝ) (hB : ∀ t ∈ Set.Icc l u, |F s t| ≤ B) :
    |rdd x (fun i => F 0 (x i)) a s| ≤ B / s.factorial := by
  have hd := Lagrange.degree_interpolate_lt (fun i => F 0 (x i)) hx
  rw [Nat.card_Icc, show a + s + 1 - a = s + 1 by omega] at hd
  obtain ⟨ξ, hξ, h⟩ := interp_coeff F s l u hF (Finset.Icc a (a + s)) (by rw [Nat.card_Icc]; omega) x hx hin _ hd
    (fun i hi => Lagrange.eval_interpolate_at_node _ hx hi)
  rw [rdd_coeff x _ s a hx] at h
  have hkf : (0 : ℝ) < s.factorial := by exact_mod_cast s.factorial_pos
  rw [le_div_iff₀ hkf]
  have h2 := hB ξ hξ
  rw [h, abs_mul, abs_of_pos hkf] at h2
  linarith

end Verif

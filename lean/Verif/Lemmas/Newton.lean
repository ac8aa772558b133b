import Verif.Lemmas.Poly
import Mathlib.Algebra.Order.Ring.GeomSum

/-! # Newton interpolation with rounding errors, over the rationals -/

namespace Verif
open Finset

/-- The Newton basis product `(t - x_a)(t - x_{a+1})…(t - x_{a+r-1})`. -/
def npi (x : ℕ → ℚ) (a r : ℕ) (t : ℚ) : ℚ := ∏ l ∈ range r, (t - x (a + l))

/-- The divided difference over the points `a, …, a+s`. -/
def Dv (x : ℕ → ℚ) : ℕ → ℕ → (ℕ → ℚ) → ℚ
  | a, 0, f => f a
  | a, s + 1, f => (Dv x (a + 1) s f - Dv x a s f) / (x (a + s + 1) - x a)

theorem Dv_congr (x : ℕ → ℚ) (s : ℕ) : ∀ (a : ℕ) (f g : ℕ → ℚ), (∀ m, a ≤ m → m ≤ a + s → f m = g m) → Dv x a s f = Dv x a s g := by
  induction s with
  | zero => intro a f g h; exact h a le_rfl le_rfl
  | succ s ih =>
    intro a f g h
    rw [Dv, Dv, ih (a + 1) f g (fun m h1 h2 => h m (by omega) (by omega)), ih a f g (fun m h1 h2 => h m h1 (by omega))]

theorem Dv_add (x : ℕ → ℚ) (s : ℕ) : ∀ (a : ℕ) (f g : ℕ → ℚ), Dv x a s (fun m => f m + g m) = Dv x a s f + Dv x a s g := by
  induction s with
  | zero => intro a f g; rfl
  | succ s ih => intro a f g; rw [Dv, Dv, Dv, ih, ih]; ring

theorem Dv_smul (x : ℕ → ℚ) (c : ℚ) (s : ℕ) : ∀ (a : ℕ) (f : ℕ → ℚ), Dv x a s (fun m => c * f m) = c * Dv x a s f := by
  induction s with
  | zero => intro a f; rfl
  | succ s ih => intro a f; rw [Dv, Dv, ih, ih]; ring

theorem Dv_zero (x : ℕ → ℚ) (s a : ℕ) : Dv x a s (fun _ => 0) = 0 := by
  have := Dv_smul x 0 s a (fun _ => 0)
  simpa using this

theorem Dv_sum (x : ℕ → ℚ) (s a : ℕ) (F : ℕ → ℕ → ℚ) (k : ℕ) :
    Dv x a s (fun m => ∑ i ∈ range k, F i m) = ∑ i ∈ range k, Dv x a s (F i) := by
  induction k with
  | zero => simpa using Dv_zero x s a
  | succ k ih =>
    simp only [sum_range_succ]
    rw [Dv_add, ih]

theorem Dv_const (x : ℕ → ℚ) (c : ℚ) (s a : ℕ) : Dv x a (s + 1) (fun _ => c) = 0 := by
  induction s generalizing a with
  | zero => simp [Dv]
  | succ s ih => rw [Dv, ih, ih]; simp

/-- Distinct points. -/
def DistinctQ (x : ℕ → ℚ) (k : ℕ) : Prop := ∀ i j, i < j → j < k → x i ≠ x j

theorem Dv_rec (x : ℕ → ℚ) (a s : ℕ) (f : ℕ → ℚ) (h : x a ≠ x (a + s + 1)) :
    Dv x (a + 1) s f = Dv x a s f + (x (a + s + 1) - x a) * Dv x a (s + 1) f := by
  rw [Dv]
  have : x (a + s + 1) - x a ≠ 0 := sub_ne_zero.2 (Ne.symm h)
  field_simp
  ring

/-- A factor that vanishes at the first point drops that point. -/
theorem Dv_drop (x : ℕ → ℚ) (k : ℕ) (hd : DistinctQ x k) (s : ℕ) : ∀ (a : ℕ) (g : ℕ → ℚ), a + s + 1 < k →
    Dv x a (s + 1) (fun m => (x m - x a) * g m) = Dv x (a + 1) s g := by
  induction s with
  | zero =>
    intro a g h
    have : x (a + 1) - x a ≠ 0 := sub_ne_zero.2 (hd a (a + 1) (by omega) (by omega)).symm
    simp only [Dv, Nat.add_zero, sub_self, zero_mul, sub_zero]
    field_simp
  | succ s ih =>
    intro a g h
    rw [Dv, ih a g (by omega)]
    have e : (fun m => (x m - x a) * g m) = fun m => (x m - x (a + 1)) * g m + (x (a + 1) - x a) * g m := by
      funext m; ring
    rw [e, Dv_add, Dv_smul, ih (a + 1) g (by omega)]
    have hr := Dv_rec x (a + 1) s g (hd _ _ (by omega) (by omega))
    rw [hr]
    have h1 : x (a + (s + 1) + 1) - x a ≠ 0 := sub_ne_zero.2 (hd a (a + (s + 1) + 1) (by omega) (by omega)).symm
    have e2 : a + 1 + s + 1 = a + (s + 1) + 1 := by omega
    rw [e2]
    field_simp
    ring

/-- Divided differences of a Newton basis polynomial. -/
theorem Dv_npi (x : ℕ → ℚ) (k : ℕ) (hd : DistinctQ x k) (r : ℕ) : ∀ (a s : ℕ), a + s < k →
    Dv x a s (fun m => npi x a r (x m)) = if s = r then 1 else 0 := by
  induction r with
  | zero =>
    intro a s h
    have e : (fun m => npi x a 0 (x m)) = fun _ => (1 : ℚ) := by funext m; simp [npi]
    rw [e]
    cases s with
    | zero => simp [Dv]
    | succ s => rw [Dv_const]; simp
  | succ r ih =>
    intro a s h
    have e : (fun m => npi x a (r + 1) (x m)) = fun m => (x m - x a) * npi x (a + 1) r (x m) := by
      funext m
      unfold npi
      rw [prod_range_succ', Nat.add_zero, mul_comm]
      congr 1
      apply prod_congr rfl
      intro l _
      rw [show a + (l + 1) = a + 1 + l by omega]
    rw [e]
    cases s with
    | zero => simp [Dv]
    | succ s =>
      rw [Dv_drop x k hd s a _ (by omega), ih (a + 1) s (by omega)]
      simp

/-- The Newton form with coefficients `c`. -/
def newtonForm (x : ℕ → ℚ) (c : ℕ → ℚ) (k : ℕ) (t : ℚ) : ℚ := ∑ i ∈ range k, c i * npi x 0 i t

theorem Dv_newton (x : ℕ → ℚ) (k : ℕ) (hd : DistinctQ x k) (c : ℕ → ℚ) (s : ℕ) (hs : s < k) :
    Dv x 0 s (fun m => newtonForm x c k (x m)) = c s := by
  unfold newtonForm
  rw [Dv_sum x s 0 (fun i m => c i * npi x 0 i (x m)) k]
  have : ∀ i ∈ range k, Dv x 0 s (fun m => c i * npi x 0 i (x m)) = if s = i then c i else 0 := by
    intro i _
    rw [Dv_smul, Dv_npi x k hd i 0 s (by omega)]
    split_ifs <;> simp
  rw [sum_congr rfl this, sum_ite_eq]
  simp [hs]

/-- **Residual of Newton interpolation with inexact differences.**  If every computed difference `T a (s+1)` is within `ε`
of the exact quotient of computed differences, the Newton form built on the first entries misses the samples by at most
`ε ((1+D)^m - 1)`, where `D` bounds the distances. -/
theorem newton_residual (x : ℕ → ℚ) (k : ℕ) (hd : DistinctQ x k) (T : ℕ → ℕ → ℚ) (ε D : ℚ) (hε : 0 ≤ ε) (_hD : 0 ≤ D)
    (hdist : ∀ i j, i < k → j < k → |x i - x j| ≤ D)
    (hT : ∀ a s, a + s + 1 < k → |T a (s + 1) - (T (a + 1) s - T a s) / (x (a + s + 1) - x a)| ≤ ε) (m : ℕ) (hm : m < k) :
    |newtonForm x (fun i => T 0 i) k (x m) - T m 0| ≤ ε * ((1 + D) ^ m - 1) := by
  set f := fun m => newtonForm x (fun i => T 0 i) k (x m) with hf
  have key : ∀ a s, a + s < k → |Dv x a s f - T a s| ≤ ε * ((1 + D) ^ a - 1) := by
    intro a
    induction a with
    | zero =>
      intro s hs
      rw [hf, Dv_newton x k hd (fun i => T 0 i) s (by omega)]
      simp
    | succ a ih =>
      intro s hs
      have hne := hd a (a + s + 1) (by omega) (by omega)
      have h1 := Dv_rec x a s f hne
      have h2 := hT a s (by omega)
      have hx0 : x (a + s + 1) - x a ≠ 0 := sub_ne_zero.2 hne.symm
      set e := T a (s + 1) - (T (a + 1) s - T a s) / (x (a + s + 1) - x a) with he
      have h3 : T (a + 1) s = T a s + (x (a + s + 1) - x a) * (T a (s + 1) - e) := by
        rw [he]; field_simp; ring
      have h4 : Dv x (a + 1) s f - T (a + 1) s = (Dv x a s f - T a s) + (x (a + s + 1) - x a) * (Dv x a (s + 1) f - T a (s + 1) + e) := by
        rw [h1, h3]; ring
      rw [h4]
      refine (abs_add_le _ _).trans ?_
      rw [abs_mul]
      have i1 := ih s (by omega)
      have i2 := ih (s + 1) (by omega)
      have i3 := abs_add_le (Dv x a (s + 1) f - T a (s + 1)) e
      have hD := hdist (a + s + 1) a (by omega) (by omega)
      have hpos : 0 ≤ D := (abs_nonneg _).trans hD
      have h5 : |x (a + s + 1) - x a| * |Dv x a (s + 1) f - T a (s + 1) + e| ≤ D * (ε * ((1 + D) ^ a - 1) + ε) :=
        mul_le_mul hD (by linarith) (abs_nonneg _) hpos
      calc _ ≤ ε * ((1 + D) ^ a - 1) + D * (ε * ((1 + D) ^ a - 1) + ε) := by linarith
        _ = ε * ((1 + D) ^ (a + 1) - 1) := by rw [pow_succ]; ring
  exact key m 0 (by omega)

/-- Error of the computed Newton basis polynomials. -/
theorem basis_error (x : ℕ → ℚ) (k : ℕ) (N : ℕ → ℕ → ℚ) (η : ℚ) (h0 : ∀ j, N 0 j = if j = 0 then 1 else 0)
    (hs0 : ∀ i, N (i + 1) 0 = N i 0 * -x i) (hhi : ∀ i j, i < j → N i j = 0)
    (hs : ∀ i j, |N (i + 1) (j + 1) - (N i (j + 1) * -x i + N i j)| ≤ η) (t D S : ℚ) (hη : 0 ≤ η) (hD : 0 ≤ D)
    (hdist : ∀ i, i < k → |t - x i| ≤ D) (hS : ∑ j ∈ range k, |t| ^ j ≤ S) : ∀ i, i < k →
    |∑ j ∈ range k, N i j * t ^ j - npi x 0 i t| ≤ η * S * ∑ l ∈ range i, D ^ l := by
  intro i
  induction i with
  | zero =>
    intro hk
    have : ∑ j ∈ range k, N 0 j * t ^ j = 1 := by
      rw [sum_eq_single 0]
      · simp [h0]
      · intro b _ hb; rw [h0, if_neg hb]; ring
      · intro h; exact absurd (mem_range.2 hk) h
    rw [this]; simp [npi]
  | succ i ih =>
    intro hk
    obtain ⟨q, rfl⟩ : ∃ q, k = q + 1 := ⟨k - 1, by omega⟩
    have hS0 : 0 ≤ S := le_trans (sum_nonneg (fun j _ => by positivity)) hS
    set B := ∑ j ∈ range (q + 1), N i j * t ^ j with hB
    set R := ∑ j ∈ range q, (N (i + 1) (j + 1) - (N i (j + 1) * -x i + N i j)) * t ^ (j + 1) with hR
    have e : ∑ j ∈ range (q + 1), N (i + 1) j * t ^ j = (t - x i) * B + R := by
      have s1 : ∑ j ∈ range (q + 1), N (i + 1) j * t ^ j = ∑ j ∈ range q, N (i + 1) (j + 1) * t ^ (j + 1) + N (i + 1) 0 := by
        rw [sum_range_succ']; simp
      have s2 : x i * B = x i * (∑ j ∈ range q, N i (j + 1) * t ^ (j + 1)) + x i * N i 0 := by
        rw [hB, sum_range_succ']; simp [mul_add]
      have s3 : t * B = ∑ j ∈ range q, N i j * t ^ (j + 1) := by
        rw [hB, sum_range_succ, hhi i q (by omega), zero_mul, add_zero, mul_sum]
        apply sum_congr rfl
        intro j _; ring
      rw [s1, sub_mul, s2, s3, hs0, hR, mul_sum]
      rw [show ∑ j ∈ range q, N (i + 1) (j + 1) * t ^ (j + 1) =
        ∑ j ∈ range q, ((N (i + 1) (j + 1) - (N i (j + 1) * -x i + N i j)) * t ^ (j + 1) - x i * (N i (j + 1) * t ^ (j + 1)) + N i j * t ^ (j + 1)) from
        sum_congr rfl (fun j _ => by ring)]
      rw [sum_add_distrib, sum_sub_distrib]; ring
    have hRb : |R| ≤ η * S := by
      calc |R| ≤ ∑ j ∈ range q, |(N (i + 1) (j + 1) - (N i (j + 1) * -x i + N i j)) * t ^ (j + 1)| := abs_sum_le_sum_abs _ _
        _ ≤ ∑ j ∈ range q, η * |t| ^ (j + 1) := by
            apply sum_le_sum
            intro j _
            rw [abs_mul, abs_pow]
            exact mul_le_mul_of_nonneg_right (hs i j) (by positivity)
        _ = η * ∑ j ∈ range q, |t| ^ (j + 1) := by rw [mul_sum]
        _ ≤ η * S := by
            apply mul_le_mul_of_nonneg_left _ hη
            refine le_trans ?_ hS
            rw [sum_range_succ']
            simp
    have hpi : npi x 0 (i + 1) t = (t - x i) * npi x 0 i t := by
      unfold npi; rw [prod_range_succ, Nat.zero_add, mul_comm]
    rw [e, hpi, show (t - x i) * B + R - (t - x i) * npi x 0 i t = (t - x i) * (B - npi x 0 i t) + R by ring]
    refine (abs_add_le _ _).trans ?_
    rw [abs_mul]
    have h1 := mul_le_mul (hdist i (by omega)) (ih (by omega)) (abs_nonneg _) hD
    calc _ ≤ D * (η * S * ∑ l ∈ range i, D ^ l) + η * S := add_le_add h1 hRb
      _ = η * S * ∑ l ∈ range (i + 1), D ^ l := by
          rw [sum_range_succ' (fun l => D ^ l), mul_add, mul_sum, mul_sum, mul_sum]
          congr 1
          · apply sum_congr rfl
            intro l _; ring
          · simp

/-- **Residual of the computed interpolation polynomial.** -/
theorem poly_residual (x : ℕ → ℚ) (k : ℕ) (hd : DistinctQ x k) (T N P : ℕ → ℕ → ℚ) (ε η D : ℚ) (hε : 0 ≤ ε) (hη : 0 ≤ η) (hD : 0 ≤ D)
    (hdist : ∀ i j, i < k → j < k → |x i - x j| ≤ D)
    (hT : ∀ a s, a + s + 1 < k → |T a (s + 1) - (T (a + 1) s - T a s) / (x (a + s + 1) - x a)| ≤ ε)
    (h0 : ∀ j, N 0 j = if j = 0 then 1 else 0) (hs0 : ∀ i, N (i + 1) 0 = N i 0 * -x i) (hhi : ∀ i j, i < j → N i j = 0)
    (hs : ∀ i j, |N (i + 1) (j + 1) - (N i (j + 1) * -x i + N i j)| ≤ η)
    (hP0 : ∀ j, P 0 j = 0) (hP : ∀ i j, |P (i + 1) j - (P i j + N i j * T 0 i)| ≤ η) (m : ℕ) (hm : m < k) :
    |∑ j ∈ range k, P k j * x m ^ j - T m 0| ≤
      ε * ((1 + D) ^ m - 1) + η * (∑ j ∈ range k, |x m| ^ j) * ∑ i ∈ range k, (1 + |T 0 i| * ∑ l ∈ range i, D ^ l) := by
  set S := ∑ j ∈ range k, |x m| ^ j with hS
  have hS0 : 0 ≤ S := sum_nonneg (fun j _ => by positivity)
  have hbasis := basis_error x k N η h0 hs0 hhi hs (x m) D S hη hD (fun i hi => hdist m i hm hi) le_rfl
  -- the terms add up the basis polynomials
  have hterm : ∀ i, i ≤ k → |∑ j ∈ range k, P i j * x m ^ j - ∑ l ∈ range i, T 0 l * npi x 0 l (x m)| ≤
      η * S * ∑ l ∈ range i, (1 + |T 0 l| * ∑ l' ∈ range l, D ^ l') := by
    intro i
    induction i with
    | zero => intro _; simp [hP0]
    | succ i ih =>
      intro hi
      have ih' := ih (by omega)
      set R := ∑ j ∈ range k, (P (i + 1) j - (P i j + N i j * T 0 i)) * x m ^ j with hR
      have e : ∑ j ∈ range k, P (i + 1) j * x m ^ j = ∑ j ∈ range k, P i j * x m ^ j + T 0 i * ∑ j ∈ range k, N i j * x m ^ j + R := by
        rw [hR, mul_sum, ← sum_add_distrib, ← sum_add_distrib]
        apply sum_congr rfl
        intro j _; ring
      have hRb : |R| ≤ η * S := by
        calc |R| ≤ ∑ j ∈ range k, |(P (i + 1) j - (P i j + N i j * T 0 i)) * x m ^ j| := abs_sum_le_sum_abs _ _
          _ ≤ ∑ j ∈ range k, η * |x m| ^ j := by
              apply sum_le_sum
              intro j _
              rw [abs_mul, abs_pow]
              exact mul_le_mul_of_nonneg_right (hP i j) (by positivity)
          _ = η * S := by rw [mul_sum]
      rw [e, sum_range_succ (fun l => T 0 l * npi x 0 l (x m)), sum_range_succ (fun l => 1 + |T 0 l| * ∑ l' ∈ range l, D ^ l')]
      set A := ∑ j ∈ range k, P i j * x m ^ j
      set A' := ∑ l ∈ range i, T 0 l * npi x 0 l (x m)
      set B := ∑ j ∈ range k, N i j * x m ^ j
      have hb := hbasis i (by omega)
      rw [show A + T 0 i * B + R - (A' + T 0 i * npi x 0 i (x m)) = (A - A') + (T 0 i * (B - npi x 0 i (x m)) + R) by ring]
      refine (abs_add_le _ _).trans ?_
      have h1 := abs_add_le (T 0 i * (B - npi x 0 i (x m))) R
      rw [abs_mul] at h1
      have h2 : |T 0 i| * |B - npi x 0 i (x m)| ≤ |T 0 i| * (η * S * ∑ l ∈ range i, D ^ l) :=
        mul_le_mul_of_nonneg_left hb (abs_nonneg _)
      calc _ ≤ η * S * ∑ l ∈ range i, (1 + |T 0 l| * ∑ l' ∈ range l, D ^ l') + (|T 0 i| * (η * S * ∑ l ∈ range i, D ^ l) + η * S) := by linarith
        _ = _ := by ring
  have h1 := hterm k le_rfl
  have h2 := newton_residual x k hd T ε D hε hD hdist hT m hm
  unfold newtonForm at h2
  have h3 := abs_sub_le (∑ j ∈ range k, P k j * x m ^ j) (∑ l ∈ range k, T 0 l * npi x 0 l (x m)) (T m 0)
  linarith

end Verif

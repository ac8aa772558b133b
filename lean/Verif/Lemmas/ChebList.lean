import Verif.Lemmas.ChebAlias
import Verif.Props.ApproxError

/-!
# Sums of Chebyshev polynomials as lists of integers

The kernel turns the terms of a power series into coefficients of Chebyshev polynomials, folds these to the degrees up to `N`, and expands the
result in powers again.
-/

namespace Verif

open Polynomial Polynomial.Chebyshev

def zAdd : List ℤ → List ℤ → List ℤ
  | [], l => l
  | a :: l, [] => a :: l
  | a :: l, b :: m => (a + b) :: zAdd l m

def zScale (c : ℤ) : List ℤ → List ℤ
  | [] => []
  | a :: l => (c * a) :: zScale c l

/-- The value of `a₀ + a₁ y + …`. -/
noncomputable def zPoly : List ℤ → ℝ[X]
  | [] => 0
  | a :: l => C (a : ℝ) + X * zPoly l

/-- The sum `a₀ T i + a₁ T (i + 1) + …`. -/
noncomputable def zCheb : ℕ → List ℤ → ℝ[X]
  | _, [] => 0
  | i, a :: l => C (a : ℝ) * T ℝ i + zCheb (i + 1) l

theorem zPoly_add (l m : List ℤ) : zPoly (zAdd l m) = zPoly l + zPoly m := by
  induction l generalizing m with
  | nil => simp [zAdd, zPoly]
  | cons a l ih =>
    cases m with
    | nil => simp [zAdd, zPoly]
    | cons b m =>
      simp only [zAdd, zPoly, ih, Int.cast_add, C_add]
      ring

theorem zCheb_add (i : ℕ) (l m : List ℤ) : zCheb i (zAdd l m) = zCheb i l + zCheb i m := by
  induction l generalizing m i with
  | nil => simp [zAdd, zCheb]
  | cons a l ih =>
    cases m with
    | nil => simp [zAdd, zCheb]
    | cons b m =>
      simp only [zAdd, zCheb, ih, Int.cast_add, C_add]
      ring

theorem zPoly_scale (c : ℤ) (l : List ℤ) : zPoly (zScale c l) = C (c : ℝ) * zPoly l := by
  induction l with
  | nil => simp [zScale, zPoly]
  | cons a l ih =>
    simp only [zScale, zPoly, ih, Int.cast_mul, Polynomial.C_mul]
    ring

theorem two_X_T (i : ℕ) : 2 * X * T ℝ ((i + 1 : ℕ) : ℤ) = T ℝ ((i + 2 : ℕ) : ℤ) + T ℝ (i : ℤ) := by
  push_cast
  rw [T_add_two]
  ring

/-- Multiplication by `2 X`. -/
def chebMul : List ℤ → List ℤ
  | [] => []
  | c :: cs => zAdd (0 :: (2 * c) :: cs) cs

theorem zCheb_mul_aux (i : ℕ) (l : List ℤ) : 2 * X * zCheb (i + 1) l = zCheb (i + 2) l + zCheb i l := by
  induction l generalizing i with
  | nil => simp [zCheb]
  | cons a l ih =>
    simp only [zCheb, mul_add, ih]
    have := two_X_T i
    linear_combination C (a : ℝ) * this

theorem zCheb_mul (l : List ℤ) : zCheb 0 (chebMul l) = 2 * X * zCheb 0 l := by
  cases l with
  | nil => simp [chebMul, zCheb]
  | cons c cs =>
    have h2 : (C ((2 * c : ℤ) : ℝ) : ℝ[X]) = 2 * C (c : ℝ) := by push_cast; rw [Polynomial.C_mul]; rfl
    simp only [chebMul, zCheb_add, zCheb, mul_add, zero_add, zCheb_mul_aux, h2, Int.cast_zero, C_0, zero_mul]
    push_cast
    rw [T_one, T_zero]
    ring

/-- From powers of `2 X` to Chebyshev polynomials. -/
def chebOfPoly : List ℤ → List ℤ
  | [] => []
  | e :: es => zAdd [e] (chebMul (chebOfPoly es))

theorem zCheb_ofPoly (es : List ℤ) : zCheb 0 (chebOfPoly es) = (zPoly es).comp (2 * X) := by
  induction es with
  | nil => simp [chebOfPoly, zCheb, zPoly]
  | cons e es ih =>
    simp only [chebOfPoly, zCheb_add, zCheb_mul, ih, zPoly, zCheb, add_comp, mul_comp, X_comp, C_comp]
    push_cast
    rw [T_zero]
    ring

theorem zCheb_ofPoly_eval (es : List ℤ) (y : ℝ) : (zCheb 0 (chebOfPoly es)).eval y = (zPoly es).eval (2 * y) := by
  rw [zCheb_ofPoly, eval_comp]; simp

/-- The coefficients of the degrees that fold to `j`; `i` is the degree of the head. -/
def foldAt (N j : ℕ) : ℕ → List ℤ → ℤ
  | _, [] => 0
  | i, a :: l => (if aliasIdx N i = j then a else 0) + foldAt N j (i + 1) l

def foldList (N : ℕ) (l : List ℤ) : List ℤ := (List.range (N + 1)).map fun j => foldAt N j 0 l

/-- The sum with the degrees folded. -/
noncomputable def zFold (N : ℕ) : ℕ → List ℤ → ℝ[X]
  | _, [] => 0
  | i, a :: l => C (a : ℝ) * T ℝ (aliasIdx N i) + zFold N (i + 1) l

theorem zCheb_map (g : ℕ → ℤ) (m i : ℕ) : zCheb i ((List.range' i m).map g) = ∑ j ∈ Finset.range m, C (g (i + j) : ℝ) * T ℝ ((i + j : ℕ) : ℤ) := by
  induction m generalizing i with
  | zero => simp [zCheb]
  | succ m ih =>
    rw [List.range'_succ, List.map_cons, zCheb, ih, Finset.sum_range_succ', add_comm]
    simp only [Nat.add_zero]
    congr 1
    refine Finset.sum_congr rfl fun j _ => ?_
    rw [show i + 1 + j = i + (j + 1) by ring]

theorem zCheb_foldList (N : ℕ) (l : List ℤ) : zCheb 0 (foldList N l) = zFold N 0 l := by
  rw [foldList, List.range_eq_range', zCheb_map]
  simp only [Nat.zero_add]
  generalize 0 = i
  induction l generalizing i with
  | nil => simp [foldAt, zFold]
  | cons a l ih =>
    simp only [foldAt, zFold, Int.cast_add, C_add, add_mul, Finset.sum_add_distrib, ih]
    congr 1
    rw [Finset.sum_eq_single (aliasIdx N i)]
    · simp
    · intro j _ hj
      rw [if_neg (Ne.symm hj)]; simp
    · intro h
      exact absurd (Finset.mem_range.2 (Nat.lt_succ_of_le (aliasIdx_le N i))) h

/-- From Chebyshev polynomials to powers; `p` and `q` are the current and the next one. -/
def chebMono : List ℤ → List ℤ → List ℤ → List ℤ
  | _, _, [] => []
  | p, q, c :: l => zAdd (zScale c p) (chebMono q (zAdd (0 :: zScale 2 q) (zScale (-1) p)) l)

theorem zPoly_mono (i : ℕ) (p q l : List ℤ) (hp : zPoly p = T ℝ (i : ℤ)) (hq : zPoly q = T ℝ ((i + 1 : ℕ) : ℤ)) : zPoly (chebMono p q l) = zCheb i l := by
  induction l generalizing i p q with
  | nil => simp [chebMono, zPoly, zCheb]
  | cons c l ih =>
    rw [chebMono, zPoly_add, zPoly_scale, hp, zCheb, ih (i + 1) _ _ hq]
    rw [zPoly_add, zPoly_scale, zPoly, zPoly_scale, hp, hq]
    have := two_X_T i
    push_cast at this ⊢
    rw [Polynomial.C_neg, Polynomial.C_0, Polynomial.C_1, show (C 2 : ℝ[X]) = 2 from rfl, show (i : ℤ) + 1 + 1 = i + 2 by ring]
    linear_combination this

/-- The terms of the interpolant. -/
def monoList (N : ℕ) (l : List ℤ) : List ℤ := chebMono [1] [0, 1] (foldList N l)

theorem zPoly_monoList (N : ℕ) (l : List ℤ) : zPoly (monoList N l) = zFold N 0 l := by
  rw [monoList, zPoly_mono 0 [1] [0, 1] _ (by simp [zPoly]) (by simp [zPoly]), zCheb_foldList]

/-! ## As sums over the degrees -/

def zAt (l : List ℤ) (k : ℕ) : ℤ := l.getD k 0

theorem zCheb_sum (i : ℕ) (l : List ℤ) : zCheb i l = ∑ k ∈ Finset.range l.length, C (zAt l k : ℝ) * T ℝ ((i + k : ℕ) : ℤ) := by
  induction l generalizing i with
  | nil => simp [zCheb]
  | cons a l ih =>
    rw [zCheb, ih, List.length_cons, Finset.sum_range_succ', add_comm]
    simp only [zAt, List.getD_cons_zero, List.getD_cons_succ, Nat.add_zero]
    congr 1
    refine Finset.sum_congr rfl fun j _ => ?_
    rw [show i + 1 + j = i + (j + 1) by ring]

theorem zFold_sum (N i : ℕ) (l : List ℤ) : zFold N i l = ∑ k ∈ Finset.range l.length, C (zAt l k : ℝ) * T ℝ (aliasIdx N (i + k)) := by
  induction l generalizing i with
  | nil => simp [zFold]
  | cons a l ih =>
    rw [zFold, ih, List.length_cons, Finset.sum_range_succ', add_comm]
    simp only [zAt, List.getD_cons_zero, List.getD_cons_succ, Nat.add_zero]
    congr 1
    refine Finset.sum_congr rfl fun j _ => ?_
    rw [show i + 1 + j = i + (j + 1) by ring]

/-- `∑ |a k| g ^ k`. -/
def zAbs (g : ℚ) : List ℤ → ℚ
  | [] => 0
  | a :: l => |(a : ℚ)| + g * zAbs g l

theorem zAbs_nonneg {g : ℚ} (hg : 0 ≤ g) (l : List ℤ) : 0 ≤ zAbs g l := by
  induction l with
  | nil => simp [zAbs]
  | cons a l ih => rw [zAbs]; positivity

theorem absSum_zPoly (K : ℕ) (l : List ℤ) {g : ℚ} (hg : 0 ≤ g) {x : ℝ} (hx : 0 ≤ x) (hxg : x ≤ g) : absSum K (zPoly l) x ≤ zAbs g l := by
  induction l generalizing K with
  | nil => simp [zPoly, zAbs, absSum_zero]
  | cons a l ih =>
    cases K with
    | zero =>
      simp only [absSum, Finset.range_zero, Finset.sum_empty]
      exact_mod_cast zAbs_nonneg hg (a :: l)
    | succ K =>
      have : absSum (K + 1) (zPoly (a :: l)) x = |(a : ℝ)| + x * absSum K (zPoly l) x := by
        unfold absSum
        rw [Finset.sum_range_succ', Finset.mul_sum, add_comm]
        simp only [zPoly, coeff_add, coeff_C_succ, coeff_X_mul, zero_add, coeff_C_zero, mul_coeff_zero, coeff_X_zero, zero_mul, add_zero, pow_zero, mul_one]
        congr 1
        refine Finset.sum_congr rfl fun i _ => ?_
        rw [pow_succ]; ring
      rw [this, zAbs]
      push_cast
      have h0 := absSum_nonneg K (zPoly l) hx
      have := mul_le_mul hxg (ih K) h0 (by exact_mod_cast hg)
      linarith

/-- The coefficients beyond `N`; `i` is the degree of the head. -/
def zTail (N : ℕ) : ℕ → List ℤ → ℕ
  | _, [] => 0
  | i, a :: l => (if N < i then a.natAbs else 0) + zTail N (i + 1) l

def zTail2 (N : ℕ) : ℕ → List ℤ → ℕ
  | _, [] => 0
  | i, a :: l => (if N < i then 2 * i ^ 2 * a.natAbs else 0) + zTail2 N (i + 1) l

theorem natAbs_real (a : ℤ) : (a.natAbs : ℝ) = |(a : ℝ)| := by rw [Nat.cast_natAbs, Int.cast_abs]

theorem zTail_sum (N i : ℕ) (l : List ℤ) : (zTail N i l : ℝ) = ∑ k ∈ Finset.range l.length, if N < i + k then |(zAt l k : ℝ)| else 0 := by
  induction l generalizing i with
  | nil => simp [zTail]
  | cons a l ih =>
    rw [zTail, List.length_cons, Finset.sum_range_succ', add_comm]
    push_cast
    rw [ih]
    simp only [zAt, List.getD_cons_zero, List.getD_cons_succ, Nat.add_zero, natAbs_real]
    congr 1
    refine Finset.sum_congr rfl fun j _ => ?_
    rw [show i + 1 + j = i + (j + 1) by ring]

theorem zTail2_sum (N i : ℕ) (l : List ℤ) : (zTail2 N i l : ℝ) = ∑ k ∈ Finset.range l.length, if N < i + k then 2 * ((i + k : ℕ) : ℝ) ^ 2 * |(zAt l k : ℝ)| else 0 := by
  induction l generalizing i with
  | nil => simp [zTail2]
  | cons a l ih =>
    rw [zTail2, List.length_cons, Finset.sum_range_succ', add_comm]
    push_cast
    rw [ih]
    simp only [zAt, List.getD_cons_zero, List.getD_cons_succ, Nat.add_zero, natAbs_real, add_zero]
    congr 1
    refine Finset.sum_congr rfl fun j _ => ?_
    rw [show i + 1 + j = i + (j + 1) by ring]
    push_cast
    rfl

/-! ## The certificate -/

/-- The numbers of `approx_terms_cheb` for the target `κ (l₀ T 0 + l₁ T 1 + …) / 2 ^ s + c`, up to `τ`. -/
structure ChebBudget where
  N : ℕ
  n : ℕ
  hi : ℚ
  s : ℕ
  l : List ℤ
  κ : ℚ
  c : ℚ
  τ : ℚ
  η : ℚ
  η' : ℚ
  r : ℚ
  g : ℚ
  M₀ : ℚ
  M : ℚ
  ε : ℚ
  A : ℚ

def ChebBudget.okWith (b : ChebBudget) (l : List ℤ) : Prop :=
  b.η + b.τ + b.κ * zTail2 b.N 0 l / 2 ^ b.s * (1 / 10 ^ b.n) ≤ b.η' ∧
  b.τ + 2 * (b.κ * zTail b.N 0 l / 2 ^ b.s) + 3 * (b.N + 1) * (nodeResidual b.N b.n (2 * b.hi) b.hi b.M + b.η') ≤ b.ε ∧
  (b.κ * zAbs b.g (monoList b.N l) / 2 ^ b.s + b.c) / b.r ^ b.N ≤ b.M₀ ∧
  b.κ * zAbs 1 (monoList b.N l) / 2 ^ b.s + b.c ≤ b.A

instance ChebBudget.decOkWith (b : ChebBudget) (l : List ℤ) : Decidable (b.okWith l) := by unfold ChebBudget.okWith; infer_instance

def ChebBudget.ok (b : ChebBudget) : Prop :=
  (1 ≤ b.N ∧ 6 ≤ b.n ∧ b.n ≤ 94 ∧ 0 < b.hi ∧ b.hi ≤ 1 ∧ 4 ^ b.N * 8 ≤ 10 ^ b.n ∧ 1000 * b.N ^ 2 ≤ 10 ^ b.n ∧ 0 ≤ b.η ∧ 0 ≤ b.κ ∧ 0 ≤ b.c ∧ 0 < b.r ∧ b.r ≤ 1 ∧
    b.hi + b.r ≤ b.g * b.hi ∧ 0 ≤ b.g) ∧
  b.M₀ + (b.η' + b.N * (1 / 2 / 10 ^ 99 * b.M₀ + 1 / 2 / 10 ^ b.n)) *
    ∏ j ∈ Finset.range b.N, (((b.N : ℚ) / (j + 1)) ^ 2 * (101 / 100 / b.hi)) ≤ b.M ∧
  b.okWith b.l

instance ChebBudget.decOk (b : ChebBudget) : Decidable b.ok := by unfold ChebBudget.ok; infer_instance

theorem ddBounded_poly (N : ℕ) (Q : ℝ[X]) (hQ : Q.degree < (N + 1 : ℕ)) {w r : ℝ} (hw : 0 ≤ w) (hr : 0 < r) (hr1 : r ≤ 1) {S : ℝ} (hS : absSum (N + 1) Q (w + r) ≤ S) :
    DDBounded (fun t => Q.eval t) N (-w) w (S / r ^ N) := by
  have h0 : ∀ i ∉ Finset.range (N + 1), Q.coeff i = 0 := fun i hi => by
    rw [degree_lt_iff_coeff_zero] at hQ
    exact hQ i (by simpa using hi)
  have h := ddBounded_of_series (fun t => Q.eval t) (fun i => Q.coeff i) id N hw hr hr1 (S := absSum (N + 1) Q (w + r)) (by
    intro t _
    have e : Q.eval t = ∑ i ∈ Finset.range (N + 1), Q.coeff i * t ^ i := by
      refine eval_eq_sum_range' ?_ t
      by_cases hq : Q = 0
      · simp [hq]
      · exact (natDegree_lt_iff_degree_lt hq).2 hQ
    simp only [e]
    exact hasSum_sum_of_ne_finset_zero fun i hi => by simp [h0 i hi]) (hasSum_sum_of_ne_finset_zero fun i hi => by simp [h0 i hi])
  intro x a s h1 h2 h3
  exact (h x a s h1 h2 h3).trans (by gcongr)

theorem nodeResidual_nonneg (N n : ℕ) {D X M : ℚ} (hD : 0 ≤ D) (hX : 0 ≤ X) (hM : 0 ≤ M) : 0 ≤ nodeResidual N n D X M := by
  unfold nodeResidual
  have h6 : 1 ≤ (1 + D) ^ N := one_le_pow₀ (by linarith)
  have h7 : 0 ≤ (1 + D) ^ N - 1 := by linarith
  positivity

set_option maxHeartbeats 800000 in
theorem ChebBudget.sound (b : ChebBudget) (hb : b.ok) (ext : BdExt) (e : Expr) (x : Name) (parity : Parity) (lo hi : Dec) (hlo : lo.val = -b.hi)
    (hhi : hi.val = b.hi) (hpar : parity.accepts (b.N + 1)) (f : ℝ → ℝ) (κ c : ℝ) (hκ : |κ| ≤ b.κ) (hc : |c| ≤ b.c)
    (hf : ∀ y : ℝ, |y| ≤ 1 → |f (b.hi * y) - (κ * ((zCheb 0 b.l).eval y / 2 ^ b.s) + c)| ≤ b.τ)
    (hs : ∀ d : Dec, lo.val ≤ d.val → d.val ≤ hi.val → ∃ y, sampleAt ext e x b.n d = .ok y ∧ |(y.val : ℝ) - f d.val| ≤ b.η) :
    (∃ terms r, approx ext e (b.N + 1) lo hi x parity b.n = .ok r ∧ mulAddPolynomial terms x parity = .ok r ∧ terms.length = b.N + 1 ∧
      ∀ t ∈ Set.Icc (lo.val : ℝ) hi.val, |∑ i ∈ Finset.range (b.N + 1), (valAt terms i : ℝ) * t ^ i - f t| ≤ b.ε ∧
        |∑ i ∈ Finset.range (b.N + 1), (valAt terms i : ℝ) * t ^ i - (κ * ((zPoly (monoList b.N b.l)).eval (t / b.hi) / 2 ^ b.s) + c)| ≤
          3 * (b.N + 1) * (nodeResidual b.N b.n (2 * b.hi) b.hi b.M + b.η')) ∧ NearPoly f b.N b.hi b.ε b.A := by
  obtain ⟨⟨a1, a2, a3, a4, a5, a6, a7, a8, a9, a10, a11, a12, a13, a14⟩, a15, a16, a17, a18, a19⟩ := hb
  have c15 := (Rat.cast_le (K := ℝ)).2 a15
  have c16 := (Rat.cast_le (K := ℝ)).2 a16
  have c17 := (Rat.cast_le (K := ℝ)).2 a17
  have c18 := (Rat.cast_le (K := ℝ)).2 a18
  have c19 := (Rat.cast_le (K := ℝ)).2 a19
  have c13 := (Rat.cast_le (K := ℝ)).2 a13
  push_cast at c13 c15 c16 c17 c18 c19
  set l := b.l with hl
  have hW : (0 : ℝ) < b.hi := by exact_mod_cast a4
  have hκ0 : (0 : ℝ) ≤ b.κ := by exact_mod_cast a9
  have hr0 : (0 : ℝ) < b.r := by exact_mod_cast a11
  have hr1 : (b.r : ℝ) ≤ 1 := by exact_mod_cast a12
  -- one coefficient more, so that there is a constant term
  set K := l.length + 1 with hK
  set a : ℕ → ℝ := fun k => κ / 2 ^ b.s * zAt l k + if k = 0 then c else 0 with ha
  have hlast : zAt l l.length = 0 := by simp [zAt]
  have hsum : ∀ y : ℝ, ∑ k ∈ Finset.range K, a k * (T ℝ k).eval y = κ * ((zCheb 0 l).eval y / 2 ^ b.s) + c := by
    intro y
    simp only [ha, add_mul, Finset.sum_add_distrib]
    rw [zCheb_sum, eval_finsetSum]
    congr 1
    · rw [hK, Finset.sum_range_succ, hlast, Finset.sum_div, Finset.mul_sum]
      simp only [Int.cast_zero, mul_zero, zero_mul, add_zero, eval_mul, eval_C, Nat.zero_add]
      exact Finset.sum_congr rfl fun k _ => by ring
    · rw [hK, Finset.sum_range_succ']
      simp
  have hf' : ∀ y : ℝ, |y| ≤ 1 → |f (b.hi * y) - ∑ k ∈ Finset.range K, a k * (T ℝ k).eval y| ≤ b.τ := fun y hy => by rw [hsum]; exact hf y hy
  have hale : ∀ k, b.N < k → |a k| ≤ b.κ / 2 ^ b.s * |(zAt l k : ℝ)| := by
    intro k hk
    simp only [ha, if_neg (show k ≠ 0 by omega), add_zero]
    rw [abs_mul, abs_div, abs_of_pos (by positivity : (0 : ℝ) < 2 ^ b.s)]
    gcongr
  have ht1 : chebTail b.N K a ≤ b.κ * zTail b.N 0 l / 2 ^ b.s := by
    rw [chebTail, zTail_sum, Finset.mul_sum, Finset.sum_div, hK, Finset.sum_range_succ]
    have : (if b.N < l.length then |a l.length| else 0) ≤ 0 := by
      split_ifs with h
      · have := hale _ h; rwa [hlast, Int.cast_zero, abs_zero, mul_zero] at this
      · exact le_rfl
    refine (add_le_of_nonpos_right this).trans (Finset.sum_le_sum fun k _ => ?_)
    rw [Nat.zero_add]
    split_ifs with h
    · exact (hale k h).trans (le_of_eq (by ring))
    · simp
  have ht2 : chebTail2 b.N K a ≤ b.κ * zTail2 b.N 0 l / 2 ^ b.s := by
    rw [chebTail2, zTail2_sum, Finset.mul_sum, Finset.sum_div, hK, Finset.sum_range_succ]
    have : (if b.N < l.length then 2 * (l.length : ℝ) ^ 2 * |a l.length| else 0) ≤ 0 := by
      split_ifs with h
      · have := hale _ h
        rw [hlast, Int.cast_zero, abs_zero, mul_zero] at this
        exact mul_nonpos_of_nonneg_of_nonpos (by positivity) this
      · exact le_rfl
    refine (add_le_of_nonpos_right this).trans (Finset.sum_le_sum fun k _ => ?_)
    rw [Nat.zero_add]
    split_ifs with h
    · exact (mul_le_mul_of_nonneg_left (hale k h) (by positivity)).trans (le_of_eq (by ring))
    · simp
  have hpoly : aliasPoly b.N K a b.hi = C (κ / 2 ^ b.s) * (zPoly (monoList b.N l)).comp (C (b.hi : ℝ)⁻¹ * X) + C c := by
    refine Polynomial.funext fun t => ?_
    rw [aliasPoly_eval, zPoly_monoList, zFold_sum]
    simp only [ha, add_mul, Finset.sum_add_distrib, eval_add, eval_mul, eval_C, eval_comp, eval_X, eval_finsetSum, Nat.zero_add]
    congr 1
    · rw [hK, Finset.sum_range_succ, hlast, Finset.mul_sum]
      simp only [Int.cast_zero, mul_zero, zero_mul, add_zero]
      exact Finset.sum_congr rfl fun k _ => by ring
    · rw [hK, Finset.sum_range_succ']
      simp [aliasIdx_of_le (Nat.zero_le b.N)]
  have habs : ∀ (g : ℚ) (v : ℝ), 0 ≤ g → 0 ≤ v → v / b.hi ≤ g →
      absSum (b.N + 1) (aliasPoly b.N K a b.hi) v ≤ b.κ * zAbs g (monoList b.N l) / 2 ^ b.s + b.c := by
    intro g v hg hv hvg
    rw [hpoly]
    refine (absSum_add _ _ _ hv).trans (add_le_add ?_ ?_)
    · rw [absSum_C_mul, abs_div, abs_of_pos (by positivity : (0 : ℝ) < 2 ^ b.s)]
      have e : absSum (b.N + 1) ((zPoly (monoList b.N l)).comp (C (b.hi : ℝ)⁻¹ * X)) v = absSum (b.N + 1) (zPoly (monoList b.N l)) (v / b.hi) := by
        unfold absSum
        refine Finset.sum_congr rfl fun i _ => ?_
        rw [comp_C_mul_X_coeff, abs_mul, abs_pow, abs_of_pos (inv_pos.2 hW), div_eq_mul_inv, mul_pow]
        ring
      rw [e]
      have h1 := absSum_zPoly (b.N + 1) (monoList b.N l) hg (x := v / b.hi) (by positivity) hvg
      have h2 : (0 : ℝ) ≤ zAbs g (monoList b.N l) := by exact_mod_cast zAbs_nonneg hg _
      calc |κ| / 2 ^ b.s * absSum (b.N + 1) (zPoly (monoList b.N l)) (v / b.hi) ≤ b.κ / 2 ^ b.s * zAbs g (monoList b.N l) :=
            mul_le_mul (by gcongr) h1 (absSum_nonneg _ _ (by positivity)) (by positivity)
        _ = _ := by ring
    · have e : absSum (b.N + 1) (C c) v = |c| := by
        unfold absSum
        rw [Finset.sum_range_succ']
        simp
      rw [e]; exact hc
  have hdd := ddBounded_poly b.N _ (aliasPoly_degree b.N K a b.hi) hW.le hr0 hr1
    (habs b.g (b.hi + b.r) a14 (by positivity) (by rw [div_le_iff₀ hW]; exact c13))
  have hhiR : (hi.val : ℝ) = b.hi := by rw [hhi]
  have hM₀0 : 0 ≤ (b.κ * zAbs b.g (monoList b.N l) / 2 ^ b.s + b.c : ℝ) / b.r ^ b.N := by
    have h1 : (0 : ℝ) ≤ zAbs b.g (monoList b.N l) := by exact_mod_cast zAbs_nonneg a14 _
    have h2 : (0 : ℝ) ≤ b.c := by exact_mod_cast a10
    positivity
  have hdd' : DDBounded (fun t => (aliasPoly b.N K a b.hi).eval t) b.N (-b.hi) b.hi b.M₀ := fun x a s h1 h2 h3 => (hdd x a s h1 h2 h3).trans c18
  constructor
  · obtain ⟨terms, r, h1, h2, h3, h4⟩ := approx_terms_cheb ext e b.N b.n a1 a2 a3 lo hi (by rw [hlo, hhi]; linarith) (by rw [hlo, hhi]) (by rw [hhi]; exact a5) a6 a7 x parity hpar
      f K a b.τ b.M₀ b.η b.η' b.M (by rw [hhiR]; exact hf') (by rw [hhiR]; exact hdd') (by exact_mod_cast a8)
      (by
        have := mul_le_mul_of_nonneg_right ht2 (by positivity : (0 : ℝ) ≤ 1 / 10 ^ b.n)
        linarith) hs (by rw [hhiR, ddAmp]; exact c15)
    refine ⟨terms, r, h1, h2, h3, fun t ht => ⟨(h4 t ht).1.trans ?_, ?_⟩⟩
    · rw [hhi]
      linarith
    · have h5 := (h4 t ht).2
      rw [hhi, hpoly] at h5
      simp only [eval_add, eval_mul, eval_C, eval_comp, eval_X] at h5
      rw [show κ / 2 ^ b.s * (zPoly (monoList b.N l)).eval ((b.hi : ℝ)⁻¹ * t) = κ * ((zPoly (monoList b.N l)).eval (t / b.hi) / 2 ^ b.s) by
        rw [div_eq_inv_mul t]; ring] at h5
      exact h5
  · have h1 := nearPoly_alias b.N K a hW f hf' (A := b.A) ((habs 1 b.hi zero_le_one hW.le (by rw [div_self hW.ne', Rat.cast_one])).trans (by push_cast; exact c19))
    have hτ' : b.τ + 2 * chebTail b.N K a ≤ b.ε := by
      have hM0 : 0 ≤ b.M := by
        have : (0 : ℝ) ≤ b.M := le_trans (by
          have h2 : (0 : ℝ) ≤ b.η' := by
            have h3 : (0 : ℝ) ≤ b.τ := (abs_nonneg _).trans (hf 0 (by simp))
            have h4 : (0 : ℝ) ≤ b.η := by exact_mod_cast a8
            have : (0 : ℝ) ≤ b.κ * zTail2 b.N 0 l / 2 ^ b.s * (1 / 10 ^ b.n) := by positivity
            linarith
          have h5 : (0 : ℝ) ≤ b.M₀ := hM₀0.trans c18
          positivity) c15
        exact_mod_cast this
      have h2 : (0 : ℚ) ≤ nodeResidual b.N b.n (2 * b.hi) b.hi b.M := nodeResidual_nonneg _ _ (by linarith) a4.le hM0
      have h2' : (0 : ℝ) ≤ nodeResidual b.N b.n (2 * b.hi) b.hi b.M := by exact_mod_cast h2
      have h8 : (0 : ℝ) ≤ b.η' := by
        have h3 : (0 : ℝ) ≤ b.τ := (abs_nonneg _).trans (hf 0 (by simp))
        have h4 : (0 : ℝ) ≤ b.η := by exact_mod_cast a8
        have : (0 : ℝ) ≤ b.κ * zTail2 b.N 0 l / 2 ^ b.s * (1 / 10 ^ b.n) := by positivity
        linarith
      have : 0 ≤ 3 * ((b.N : ℝ) + 1) * (nodeResidual b.N b.n (2 * b.hi) b.hi b.M + b.η') := by positivity
      linarith
    intro γ hγ
    obtain ⟨Q, q1, q2, q3⟩ := h1 γ hγ
    exact ⟨Q, q1, fun t ht => (q2 t ht).trans (by linarith), q3⟩

/-- The terms of a request of the table, and a polynomial close to the target. -/
theorem ChebBudget.within (b : ChebBudget) (hb : b.ok) (ext : BdExt) (s : ApproxSpec) (lo hi : Dec) (hs : s.bounds = some (lo, hi)) (hlo : lo.val = -b.hi)
    (hhi : hi.val = b.hi) (hpar : s.parity.accepts (b.N + 1)) (f : ℝ → ℝ) (hfit : ParityFits s.parity lo hi f) (κ c : ℝ) (hκ : |κ| ≤ b.κ) (hc : |c| ≤ b.c)
    (hf : ∀ y : ℝ, |y| ≤ 1 → |f (b.hi * y) - (κ * ((zCheb 0 b.l).eval y / 2 ^ b.s) + c)| ≤ b.τ)
    (hsam : ∀ d : Dec, lo.val ≤ d.val → d.val ≤ hi.val → ∃ y, sampleAt ext s.target [s.var] b.n d = .ok y ∧ |(y.val : ℝ) - f d.val| ≤ b.η) :
    WithinTerms ext s (b.N + 1) b.n f b.ε ∧ NearPoly f b.N b.hi b.ε b.A := by
  obtain ⟨⟨terms, r, h1, h2, h3, h4⟩, h5⟩ := b.sound hb ext s.target [s.var] s.parity lo hi hlo hhi hpar f κ c hκ hc hf hsam
  exact ⟨⟨lo, hi, r, terms, hs, h1, h2, h3, by omega, hpar, fun t ht => parity_sum hfit b.N (fun i => (valAt terms i : ℝ)) (fun t ht => (h4 t ht).1) ht⟩, h5⟩

/-! ### The interpolant itself -/

/-- The polynomial has only terms of the parity. -/
def ParityList : Parity → List ℤ → Prop
  | .neither, _ => True
  | .odd, l => ∀ i ∈ List.range l.length, i % 2 = 0 → zAt l i = 0
  | .even, l => ∀ i ∈ List.range l.length, i % 2 = 1 → zAt l i = 0

instance (p : Parity) (l : List ℤ) : Decidable (ParityList p l) := by
  cases p <;> unfold ParityList <;> infer_instance

theorem zPoly_eval_sum (l : List ℤ) (y : ℝ) : (zPoly l).eval y = ∑ i ∈ Finset.range l.length, (zAt l i : ℝ) * y ^ i := by
  induction l with
  | nil => simp [zPoly]
  | cons a l ih =>
    rw [List.length_cons, Finset.sum_range_succ', zPoly]
    simp only [eval_add, eval_C, eval_mul, eval_X, ih, zAt, List.getD_cons_succ, List.getD_cons_zero, pow_zero, mul_one]
    rw [add_comm, Finset.mul_sum]
    congr 1
    exact Finset.sum_congr rfl fun i _ => by ring

theorem zPoly_odd {l : List ℤ} (h : ParityList .odd l) (y : ℝ) : (zPoly l).eval (-y) = -(zPoly l).eval y := by
  rw [zPoly_eval_sum, zPoly_eval_sum, ← Finset.sum_neg_distrib]
  refine Finset.sum_congr rfl fun i hi => ?_
  rcases Nat.even_or_odd i with hp | hp
  · rw [h i (by simpa using hi) (Nat.even_iff.1 hp)]; simp
  · rw [hp.neg_pow]; ring

theorem zPoly_even {l : List ℤ} (h : ParityList .even l) (y : ℝ) : (zPoly l).eval (-y) = (zPoly l).eval y := by
  rw [zPoly_eval_sum, zPoly_eval_sum]
  refine Finset.sum_congr rfl fun i hi => ?_
  rcases Nat.even_or_odd i with hp | hp
  · rw [hp.neg_pow]
  · rw [h i (by simpa using hi) (Nat.odd_iff.1 hp)]; simp

/-- The interpolant of a certificate. -/
noncomputable def ChebBudget.interpolant (b : ChebBudget) (κ c : ℝ) (t : ℝ) : ℝ := κ * ((zPoly (monoList b.N b.l)).eval (t / b.hi) / 2 ^ b.s) + c

/-- What the decimals do to it. -/
def ChebBudget.residual (b : ChebBudget) : ℚ := 3 * (b.N + 1) * (nodeResidual b.N b.n (2 * b.hi) b.hi b.M + b.η')

/-- The terms are those of the interpolant, up to the decimals. -/
theorem ChebBudget.withinInterpolant (b : ChebBudget) (hb : b.ok) (ext : BdExt) (s : ApproxSpec) (lo hi : Dec) (hs : s.bounds = some (lo, hi)) (hlo : lo.val = -b.hi)
    (hhi : hi.val = b.hi) (hpar : s.parity.accepts (b.N + 1)) (hpl : ParityList s.parity (monoList b.N b.l)) (f : ℝ → ℝ) (κ c : ℝ) (hκ : |κ| ≤ b.κ) (hc : |c| ≤ b.c)
    (hc0 : s.parity = .odd → c = 0)
    (hf : ∀ y : ℝ, |y| ≤ 1 → |f (b.hi * y) - (κ * ((zCheb 0 b.l).eval y / 2 ^ b.s) + c)| ≤ b.τ)
    (hsam : ∀ d : Dec, lo.val ≤ d.val → d.val ≤ hi.val → ∃ y, sampleAt ext s.target [s.var] b.n d = .ok y ∧ |(y.val : ℝ) - f d.val| ≤ b.η) :
    WithinTerms ext s (b.N + 1) b.n (b.interpolant κ c) b.residual := by
  obtain ⟨⟨terms, r, h1, h2, h3, h4⟩, h5⟩ := b.sound hb ext s.target [s.var] s.parity lo hi hlo hhi hpar f κ c hκ hc hf hsam
  refine ⟨lo, hi, r, terms, hs, h1, h2, h3, by omega, hpar, fun t ht => parity_sum (f := b.interpolant κ c) ?_ b.N (fun i => (valAt terms i : ℝ)) (fun t ht => ?_) ht⟩
  · unfold ParityFits ChebBudget.interpolant
    generalize s.parity = p at hpl hc0
    cases p with
    | neither => trivial
    | odd => exact ⟨by rw [hlo, hhi], fun t => by rw [neg_div, zPoly_odd hpl, hc0 rfl]; ring⟩
    | even => exact ⟨by rw [hlo, hhi], fun t => by rw [neg_div, zPoly_even hpl]⟩
  · have := (h4 t ht).2
    unfold ChebBudget.interpolant ChebBudget.residual
    push_cast
    exact this

/-- A certificate for a request. -/
structure ChebBudget.Fits (b : ChebBudget) (ext : BdExt) (s : ApproxSpec) (lo hi : Dec) (f : ℝ → ℝ) (κ c : ℝ) : Prop where
  bounds : s.bounds = some (lo, hi)
  lo_eq : lo.val = -b.hi
  hi_eq : hi.val = b.hi
  accepts : s.parity.accepts (b.N + 1)
  parity : ParityFits s.parity lo hi f
  factor : |κ| ≤ b.κ
  shift : |c| ≤ b.c
  shift_odd : s.parity = .odd → c = 0
  near : ∀ y : ℝ, |y| ≤ 1 → |f (b.hi * y) - (κ * ((zCheb 0 b.l).eval y / 2 ^ b.s) + c)| ≤ b.τ
  samples : ∀ d : Dec, lo.val ≤ d.val → d.val ≤ hi.val → ∃ y, sampleAt ext s.target [s.var] b.n d = .ok y ∧ |(y.val : ℝ) - f d.val| ≤ b.η

section
variable {b : ChebBudget} {ext : BdExt} {s : ApproxSpec} {lo hi : Dec} {f : ℝ → ℝ} {κ c : ℝ}

theorem ChebBudget.fits (b : ChebBudget) (ext : BdExt) (s : ApproxSpec) (lo hi : Dec) (hs : s.bounds = some (lo, hi)) (hlo : lo.val = -b.hi) (hhi : hi.val = b.hi)
    (hpar : s.parity.accepts (b.N + 1)) (f : ℝ → ℝ) (hfit : ParityFits s.parity lo hi f) (κ c : ℝ) (hκ : |κ| ≤ b.κ) (hc : |c| ≤ b.c) (hc0 : s.parity = .odd → c = 0)
    (hf : ∀ y : ℝ, |y| ≤ 1 → |f (b.hi * y) - (κ * ((zCheb 0 b.l).eval y / 2 ^ b.s) + c)| ≤ b.τ)
    (hsam : ∀ d : Dec, lo.val ≤ d.val → d.val ≤ hi.val → ∃ y, sampleAt ext s.target [s.var] b.n d = .ok y ∧ |(y.val : ℝ) - f d.val| ≤ b.η) : b.Fits ext s lo hi f κ c :=
  ⟨hs, hlo, hhi, hpar, hfit, hκ, hc, hc0, hf, hsam⟩

theorem ChebBudget.Fits.within (h : b.Fits ext s lo hi f κ c) (hb : b.ok) : WithinTerms ext s (b.N + 1) b.n f b.ε ∧ NearPoly f b.N b.hi b.ε b.A :=
  ChebBudget.within b hb ext s lo hi h.bounds h.lo_eq h.hi_eq h.accepts f h.parity κ c h.factor h.shift h.near h.samples

theorem ChebBudget.Fits.interpolant (h : b.Fits ext s lo hi f κ c) (hb : b.ok) (hpl : ParityList s.parity (monoList b.N b.l)) :
    WithinTerms ext s (b.N + 1) b.n (b.interpolant κ c) b.residual :=
  b.withinInterpolant hb ext s lo hi h.bounds h.lo_eq h.hi_eq h.accepts hpl f κ c h.factor h.shift h.shift_odd h.near h.samples

/-- The value of a polynomial with whole coefficients at a rational. -/
def zEval (y : ℚ) : List ℤ → ℚ
  | [] => 0
  | a :: l => a + y * zEval y l

theorem zEval_eq (y : ℚ) (l : List ℤ) : (zPoly l).eval (y : ℝ) = zEval y l := by
  induction l with
  | nil => simp [zPoly, zEval]
  | cons a l ih => simp [zPoly, zEval, ih]

/-- How far the interpolant is from the cut series at `hi * y`, in units of `κ`. -/
def ChebBudget.gap (b : ChebBudget) (y : ℚ) : ℚ := (zEval y (monoList b.N b.l) - zEval y (chebMono [1] [0, 1] b.l)) / 2 ^ b.s

theorem ChebBudget.gap_eq (b : ChebBudget) (y : ℚ) : ((b.gap y : ℚ) : ℝ) = (zPoly (monoList b.N b.l)).eval (y : ℝ) / 2 ^ b.s - (zCheb 0 b.l).eval (y : ℝ) / 2 ^ b.s := by
  rw [← zPoly_mono 0 [1] [0, 1] b.l (by simp [zPoly]) (by simp [zPoly]), zEval_eq, zEval_eq, ChebBudget.gap]
  push_cast
  ring

/-- The interpolant is this far from the target. -/
theorem ChebBudget.Fits.far (h : b.Fits ext s lo hi f κ c) (hW : 0 < b.hi) (y : ℚ) (hy : |y| ≤ 1) :
    |b.interpolant κ c (b.hi * y) - f (b.hi * y) - κ * b.gap y| ≤ b.τ := by
  have h1 := h.near y (by exact_mod_cast hy)
  have hW' : (b.hi : ℝ) ≠ 0 := by exact_mod_cast hW.ne'
  rw [b.gap_eq, ChebBudget.interpolant, mul_div_cancel_left₀ _ hW']
  rw [abs_le] at h1 ⊢
  constructor <;> linarith [h1.1, h1.2]

/-- The polynomial misses the target at `t` by `ε` or more. -/
def FarAt (ext : BdExt) (s : ApproxSpec) (k n : ℕ) (f : ℝ → ℝ) (t : ℝ) (ε : ℚ) : Prop :=
  ∃ lo hi r, s.bounds = some (lo, hi) ∧ approx ext s.target k lo hi [s.var] s.parity n = .ok r ∧ t ∈ Set.Icc (lo.val : ℝ) hi.val ∧
    ∀ I : Interp ℝ, PolyInterp I (fun q : ℚ => (q : ℝ)) → I.var [s.var] = t → (ε : ℝ) ≤ |r.denote I - f t|

theorem ChebBudget.Fits.farAt (h : b.Fits ext s lo hi f κ c) (hb : b.ok) (hpl : ParityList s.parity (monoList b.N b.l)) (hW : 0 < b.hi) (y : ℚ) (hy : |y| ≤ 1)
    (κ' ε : ℚ) (hκ : (κ' : ℝ) ≤ |κ|) (hε : ε + b.τ + b.residual ≤ κ' * |b.gap y|) : FarAt ext s (b.N + 1) b.n f (b.hi * y) ε := by
  obtain ⟨lo', hi', r, hb1, hb2, hb3⟩ := (h.interpolant hb hpl).within
  have e := h.bounds
  rw [hb1] at e
  injection e with e
  injection e with e1 e2
  subst e1 e2
  have hy' : |(y : ℝ)| ≤ 1 := by exact_mod_cast hy
  have hW' : (0 : ℝ) < b.hi := by exact_mod_cast hW
  have hm : (b.hi * y : ℝ) ∈ Set.Icc (lo'.val : ℝ) hi'.val := by
    rw [h.lo_eq, h.hi_eq]
    rw [abs_le] at hy'
    push_cast
    constructor <;> nlinarith
  refine ⟨lo', hi', r, hb1, hb2, hm, fun I hI hx => ?_⟩
  have h1 := hb3 I hI (by rw [hx]; exact hm)
  rw [hx] at h1
  have h2 := h.far hW y hy
  have h3 : (ε : ℝ) + b.τ + b.residual ≤ κ' * |(b.gap y : ℝ)| := by exact_mod_cast hε
  have h4 : (κ' : ℝ) * |(b.gap y : ℝ)| ≤ |κ * b.gap y| := by
    rw [abs_mul]
    exact mul_le_mul_of_nonneg_right hκ (abs_nonneg _)
  have h5 : |κ * b.gap y| ≤ |r.denote I - f (b.hi * y)| + |r.denote I - b.interpolant κ c (b.hi * y)| + |b.interpolant κ c (b.hi * y) - f (b.hi * y) - κ * b.gap y| := by
    have e : κ * b.gap y = (r.denote I - f (b.hi * y)) - (r.denote I - b.interpolant κ c (b.hi * y)) - (b.interpolant κ c (b.hi * y) - f (b.hi * y) - κ * b.gap y) := by ring
    calc |κ * b.gap y| = |(r.denote I - f (b.hi * y)) - (r.denote I - b.interpolant κ c (b.hi * y)) - (b.interpolant κ c (b.hi * y) - f (b.hi * y) - κ * b.gap y)| := by rw [← e]
      _ ≤ _ := (abs_sub _ _).trans (add_le_add_left (abs_sub _ _) _)
  linarith

end

end Verif

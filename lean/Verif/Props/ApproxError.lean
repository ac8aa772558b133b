import Verif.Lemmas.ApproxError
import Verif.Props.EvalReal
import Verif.Model.Approximants
import Verif.Model.FunctionTable
import Mathlib.Analysis.SpecialFunctions.Trigonometric.Deriv
import Mathlib.Analysis.SpecialFunctions.Pow.Deriv
import Mathlib.Analysis.Real.Pi.Bounds

/-!
# C81: `approx` is close to its target on the whole interval

C35 and C39 bound the polynomial at the sample points only.  Here the distance is bounded everywhere between them.
-/

namespace Verif
open Dec

/-- The target has the symmetry that the request asks for, on an interval symmetric about zero. -/
def ParityFits (parity : Parity) (xmin xmax : Dec) (f : ℝ → ℝ) : Prop :=
  match parity with
  | .neither => True
  | .odd => xmin.val = -xmax.val ∧ ∀ t, f (-t) = -f t
  | .even => xmin.val = -xmax.val ∧ ∀ t, f (-t) = f t

theorem parity_sum {parity : Parity} {xmin xmax : Dec} {f : ℝ → ℝ} (hfit : ParityFits parity xmin xmax f) (N : ℕ) (c : ℕ → ℝ) {ε : ℝ}
    (he : ∀ t ∈ Set.Icc (xmin.val : ℝ) xmax.val, |∑ i ∈ Finset.range (N + 1), c i * t ^ i - f t| ≤ ε) {t : ℝ} (ht : t ∈ Set.Icc (xmin.val : ℝ) xmax.val) :
    |∑ i ∈ Finset.range (N + 1), (if parity.keeps i then c i * t ^ i else 0) - f t| ≤ ε := by
  have hx' := he _ ht
  have hneg : xmin.val = -xmax.val → -t ∈ Set.Icc (xmin.val : ℝ) xmax.val := by
    intro h
    rw [h] at ht ⊢
    push_cast at ht ⊢
    exact ⟨by linarith [ht.2], by linarith [ht.1]⟩
  cases parity with
  | neither => simpa [Parity.keeps] using hx'
  | odd =>
    obtain ⟨hsym, hodd⟩ := hfit
    have h3 := he _ (hneg hsym)
    rw [hodd] at h3
    have e : ∑ i ∈ Finset.range (N + 1), (if Parity.odd.keeps i then c i * t ^ i else 0) =
        1 / 2 * (∑ i ∈ Finset.range (N + 1), c i * t ^ i - ∑ i ∈ Finset.range (N + 1), c i * (-t) ^ i) := by
      rw [← Finset.sum_sub_distrib, Finset.mul_sum]
      apply Finset.sum_congr rfl
      intro i _
      by_cases hi : Parity.odd.keeps i
      · rw [if_pos hi, Odd.neg_pow (Nat.odd_iff.2 hi)]; ring
      · rw [if_neg hi, Even.neg_pow (Nat.even_iff.2 (by simp only [Parity.keeps] at hi; omega))]; ring
    rw [e]
    have h5 := abs_sub (∑ i ∈ Finset.range (N + 1), c i * t ^ i - f t) (∑ i ∈ Finset.range (N + 1), c i * (-t) ^ i - -f t)
    rw [show 1 / 2 * (∑ i ∈ Finset.range (N + 1), c i * t ^ i - ∑ i ∈ Finset.range (N + 1), c i * (-t) ^ i) - f t =
      1 / 2 * ((∑ i ∈ Finset.range (N + 1), c i * t ^ i - f t) - (∑ i ∈ Finset.range (N + 1), c i * (-t) ^ i - -f t)) by ring, abs_mul,
      abs_of_pos (by norm_num : (0 : ℝ) < 1 / 2)]
    linarith
  | even =>
    obtain ⟨hsym, heven⟩ := hfit
    have h3 := he _ (hneg hsym)
    rw [heven] at h3
    have e : ∑ i ∈ Finset.range (N + 1), (if Parity.even.keeps i then c i * t ^ i else 0) =
        1 / 2 * (∑ i ∈ Finset.range (N + 1), c i * t ^ i + ∑ i ∈ Finset.range (N + 1), c i * (-t) ^ i) := by
      rw [← Finset.sum_add_distrib, Finset.mul_sum]
      apply Finset.sum_congr rfl
      intro i _
      by_cases hi : Parity.even.keeps i
      · rw [if_pos hi, Even.neg_pow (Nat.even_iff.2 hi)]; ring
      · rw [if_neg hi, Odd.neg_pow (Nat.odd_iff.2 (by simp only [Parity.keeps] at hi; omega))]; ring
    rw [e]
    have h5 := abs_add_le (∑ i ∈ Finset.range (N + 1), c i * t ^ i - f t) (∑ i ∈ Finset.range (N + 1), c i * (-t) ^ i - f t)
    rw [show 1 / 2 * (∑ i ∈ Finset.range (N + 1), c i * t ^ i + ∑ i ∈ Finset.range (N + 1), c i * (-t) ^ i) - f t =
      1 / 2 * ((∑ i ∈ Finset.range (N + 1), c i * t ^ i - f t) + (∑ i ∈ Finset.range (N + 1), c i * (-t) ^ i - f t)) by ring, abs_mul,
      abs_of_pos (by norm_num : (0 : ℝ) < 1 / 2)]
    linarith

/-- **C81** Let `F 0, F 1, …` be the successive derivatives of the target on the interval.  If every sample can be evaluated with
error at most `η`, then `approx` returns, and at *every* point of the interval the returned expression is within `termError` of the
target: the classical interpolation bound at Chebyshev points plus what the decimals can contribute. -/
theorem C81_uniform (ext : BdExt) (e : Expr) (N n : ℕ) (hN : 1 ≤ N) (h1 : 6 ≤ n) (h2 : n ≤ 94) (xmin xmax : Dec) (hlt : xmin.val < xmax.val)
    (hw : xmax.val - xmin.val ≤ 2) (h4 : 4 ^ N * 8 ≤ 10 ^ n) (hN2 : 1000 * N ^ 2 ≤ 10 ^ n) (x : Name) (parity : Parity)
    (hpar : parity.accepts (N + 1)) (F : ℕ → ℝ → ℝ) (hF : DerivChain F (N + 1) xmin.val xmax.val) (hfit : ParityFits parity xmin xmax (F 0))
    (B M₀ η : ℝ) (M X : ℚ)
    (hB : ∀ t ∈ Set.Icc (xmin.val : ℝ) xmax.val, |F (N + 1) t| ≤ B) (hM₀ : ∀ s ≤ N, ∀ t ∈ Set.Icc (xmin.val : ℝ) xmax.val, |F s t| ≤ M₀ * s.factorial)
    (hη : 0 ≤ η) (hs : ∀ d : Dec, xmin.val ≤ d.val → d.val ≤ xmax.val → ∃ y, sampleAt ext e x n d = .ok y ∧ |(y.val : ℝ) - F 0 d.val| ≤ η)
    (hM : M₀ + (η + N * (1 / 2 / 10 ^ 99 * M₀ + 1 / 2 / 10 ^ n)) * ddAmp N (((xmax.val : ℝ) - xmin.val) / 2) ≤ M)
    (hX1 : |xmin.val| ≤ X) (hX2 : |xmax.val| ≤ X) :
    ∃ r, approx ext e (N + 1) xmin xmax x parity n = .ok r ∧
      ∀ I : Interp ℝ, PolyInterp I (fun q : ℚ => (q : ℝ)) → I.var x ∈ Set.Icc (xmin.val : ℝ) xmax.val →
        |r.denote I - F 0 (I.var x)| ≤ termError N n (((xmax.val : ℝ) - xmin.val) / 2) B η (xmax.val - xmin.val) X M := by
  obtain ⟨terms, r, hr, hm, hl, he⟩ := approx_terms ext e N n hN h1 h2 xmin xmax hlt hw h4 hN2 x parity hpar F hF B M₀ η M X hB hM₀ hη hs hM hX1 hX2
  refine ⟨r, hr, fun I hI hx => ?_⟩
  obtain ⟨r', hr', hv⟩ := C37_chain_value hI terms x parity (by omega) (by rw [hl]; exact hpar)
  rw [hm] at hr'
  injection hr' with hr'
  subst hr'
  rw [hv, hl]
  exact parity_sum hfit N (fun i => (valAt terms i : ℝ)) he hx

/-! ## The requests of the generators -/

theorem evalsTo_exprOfDec (ext : BdExt) (n : ℕ) (d : Dec) : EvalsTo ext n (exprOfDec d) d.val 0 :=
  ⟨exprOfDec d, canon d, by rw [exprOfDec, eval]; rfl, exprToDec_exprOfDec d, by rw [val_canon]; simp⟩

theorem sampleAt_of_evalsTo {ext : BdExt} {e s : Expr} {x : Name} {n : ℕ} {d : Dec} {v η : ℝ}
    (hsub : subst e (VariableList.new.addVar x (exprOfDec d)).1 = .ok s) (h : EvalsTo ext n s v η) :
    ∃ y, sampleAt ext e x n d = .ok y ∧ |(y.val : ℝ) - v| ≤ η := by
  obtain ⟨t, y, h1, h2, h3⟩ := h
  exact ⟨y, by unfold sampleAt; rw [hsub, Res.ok_bind, h1, Res.ok_bind, h2], h3⟩

/-! ### `sin` and `cos` -/

theorem sinChain (k : ℕ) (a b : ℝ) : DerivChain (fun j x => (2 * Real.pi) ^ j * Real.sin (2 * Real.pi * x + j * (Real.pi / 2))) k a b := by
  intro j _ x _
  have h := ((((hasDerivAt_id x).const_mul (2 * Real.pi)).add_const (j * (Real.pi / 2))).sin).const_mul ((2 * Real.pi) ^ j)
  refine h.congr_deriv ?_
  push_cast
  rw [show 2 * Real.pi * x + ((j : ℝ) + 1) * (Real.pi / 2) = 2 * Real.pi * x + j * (Real.pi / 2) + Real.pi / 2 by ring, Real.sin_add_pi_div_two]
  simp only [id, pow_succ]
  ring

theorem cosChain (k : ℕ) (a b : ℝ) : DerivChain (fun j x => (2 * Real.pi) ^ j * Real.cos (2 * Real.pi * x + j * (Real.pi / 2))) k a b := by
  intro j _ x _
  have h := ((((hasDerivAt_id x).const_mul (2 * Real.pi)).add_const (j * (Real.pi / 2))).cos).const_mul ((2 * Real.pi) ^ j)
  refine h.congr_deriv ?_
  push_cast
  rw [show 2 * Real.pi * x + ((j : ℝ) + 1) * (Real.pi / 2) = 2 * Real.pi * x + j * (Real.pi / 2) + Real.pi / 2 by ring, Real.cos_add_pi_div_two]
  simp only [id, pow_succ]
  ring

theorem two_pi_pow_le (s : ℕ) : (2 * Real.pi) ^ s ≤ 1100 * s.factorial := by
  have h1 : (2 * Real.pi) ^ s / s.factorial ≤ Real.exp (2 * Real.pi) := Real.pow_div_factorial_le_exp _ (by positivity) s
  have h2 : Real.exp (2 * Real.pi) ≤ 1100 := by
    have h3 : 2 * Real.pi ≤ 7 := by linarith [Real.pi_lt_d2]
    calc Real.exp (2 * Real.pi) ≤ Real.exp 7 := Real.exp_le_exp.2 h3
      _ = Real.exp 1 ^ 7 := by rw [← Real.exp_nat_mul]; norm_num
      _ ≤ 2.7182818286 ^ 7 := pow_le_pow_left₀ (Real.exp_pos _).le Real.exp_one_lt_d9.le 7
      _ ≤ 1100 := by norm_num
  have hf : (0 : ℝ) < s.factorial := by exact_mod_cast s.factorial_pos
  rw [div_le_iff₀ hf] at h1
  nlinarith

theorem turns_evals (ext : BdExt) (n : ℕ) (hn : n < 100) (d : Dec) (h : |(d.val : ℝ)| ≤ 1 / 2) :
    EvalsTo ext n (.paren (.binary (.binary (exprOfDec d) .mul (.path ["PI"])) .mul (ApproxSpec.num "2.0"))) (d.val * Real.pi * 2) (2 * (1 / 10 ^ n)) := by
  have h2 : EvalsTo ext n (ApproxSpec.num "2.0") ((2 : ℚ) : ℝ) 0 := C67_lit (by decide +kernel)
  have h3 := C67_paren (C67_mul (C67_mul (evalsTo_exprOfDec ext n d) (C67_pi hn)) h2)
  push_cast at h3
  refine h3.mono ?_
  have hp : (0 : ℝ) < 1 / 10 ^ n := by positivity
  simp only [mul_zero, add_zero, zero_mul, abs_two]
  nlinarith

theorem half_bounds {d : Dec} (hd1 : (⟨-5, 1⟩ : Dec).val ≤ d.val) (hd2 : d.val ≤ (⟨5, 1⟩ : Dec).val) : |(d.val : ℝ)| ≤ 1 / 2 := by
  have e1 : (⟨-5, 1⟩ : Dec).val = -(1 / 2) := by decide +kernel
  have e2 : (⟨5, 1⟩ : Dec).val = 1 / 2 := by decide +kernel
  rw [e1] at hd1
  rw [e2] at hd2
  have := (Rat.cast_le (K := ℝ)).2 (abs_le.2 ⟨hd1, hd2⟩)
  push_cast at this
  exact this

theorem turns_bound {n : ℕ} (h1 : 6 ≤ n) {v : ℝ} (h : |v| ≤ 1 / 2) : |v * Real.pi * 2| + 2 * (1 / 10 ^ n) ≤ (4 : ℕ) := by
  have hp : (1 : ℝ) / 10 ^ n ≤ 1 / 10 ^ 6 := one_div_le_one_div_of_le (by positivity) (pow_le_pow_right₀ (by norm_num) h1)
  rw [abs_mul, abs_mul, abs_of_pos Real.pi_pos, abs_two]
  have := Real.pi_lt_d2
  have := Real.pi_pos
  push_cast
  nlinarith

theorem sin_sample (ext : BdExt) (n : ℕ) (h1 : 6 ≤ n) (h2 : n ≤ 94) (d : Dec) (hd1 : (⟨-5, 1⟩ : Dec).val ≤ d.val) (hd2 : d.val ≤ (⟨5, 1⟩ : Dec).val) :
    ∃ y, sampleAt ext ApproxSpec.sin.target ["x"] n d = .ok y ∧ |(y.val : ℝ) - Real.sin (2 * Real.pi * d.val)| ≤ 3 * (1 / 10 ^ n) := by
  have hd := half_bounds hd1 hd2
  refine sampleAt_of_evalsTo rfl ?_
  have := C67_sin (turns_evals ext n (by omega) d hd) (B := 4) (by norm_num) (turns_bound h1 hd) (by omega) (by omega)
  rw [show (d.val : ℝ) * Real.pi * 2 = 2 * Real.pi * d.val by ring] at this
  exact this.mono (by linarith)

theorem cos_sample (ext : BdExt) (n : ℕ) (h1 : 6 ≤ n) (h2 : n ≤ 94) (d : Dec) (hd1 : (⟨-5, 1⟩ : Dec).val ≤ d.val) (hd2 : d.val ≤ (⟨5, 1⟩ : Dec).val) :
    ∃ y, sampleAt ext ApproxSpec.cos.target ["x"] n d = .ok y ∧ |(y.val : ℝ) - Real.cos (2 * Real.pi * d.val)| ≤ 3 * (1 / 10 ^ n) := by
  have hd := half_bounds hd1 hd2
  refine sampleAt_of_evalsTo rfl ?_
  have := C67_cos (turns_evals ext n (by omega) d hd) (B := 4) (by norm_num) (turns_bound h1 hd) (by omega) (by omega)
  rw [show (d.val : ℝ) * Real.pi * 2 = 2 * Real.pi * d.val by ring] at this
  exact this.mono (by linarith)

/-- `s`, asked for `k` terms with `n` digits, gives an expression within `ε` of `f` everywhere between its bounds. -/
def Within (ext : BdExt) (s : ApproxSpec) (k n : ℕ) (f : ℝ → ℝ) (ε : ℚ) : Prop :=
  ∃ lo hi r, s.bounds = some (lo, hi) ∧ approx ext s.target k lo hi [s.var] s.parity n = .ok r ∧
    ∀ I : Interp ℝ, PolyInterp I (fun q : ℚ => (q : ℝ)) → I.var [s.var] ∈ Set.Icc (lo.val : ℝ) hi.val →
      |r.denote I - f (I.var [s.var])| ≤ ε

/-- The same with the coefficients in view: the expression is the chain built from `terms`. -/
def WithinTerms (ext : BdExt) (s : ApproxSpec) (k n : ℕ) (f : ℝ → ℝ) (ε : ℚ) : Prop :=
  ∃ lo hi r terms, s.bounds = some (lo, hi) ∧ approx ext s.target k lo hi [s.var] s.parity n = .ok r ∧
    mulAddPolynomial terms [s.var] s.parity = .ok r ∧ terms.length = k ∧ 1 ≤ k ∧ s.parity.accepts k ∧
    ∀ t ∈ Set.Icc (lo.val : ℝ) hi.val, |∑ i ∈ Finset.range k, (if s.parity.keeps i then (valAt terms i : ℝ) * t ^ i else 0) - f t| ≤ ε

theorem WithinTerms.within {ext : BdExt} {s : ApproxSpec} {k n : ℕ} {f : ℝ → ℝ} {ε : ℚ} (h : WithinTerms ext s k n f ε) : Within ext s k n f ε := by
  obtain ⟨lo, hi, r, terms, h1, h2, h3, h4, h5, h6, h7⟩ := h
  refine ⟨lo, hi, r, h1, h2, fun I hI hx => ?_⟩
  obtain ⟨r', hr', hv⟩ := C37_chain_value hI terms [s.var] s.parity (by omega) (by rw [h4]; exact h6)
  rw [h3] at hr'
  injection hr' with hr'
  subst hr'
  rw [hv, h4]
  exact h7 _ hx

/-- The numbers of `C81_uniform`, as rationals. -/
structure Budget where
  N : ℕ
  n : ℕ
  lo : ℚ
  hi : ℚ
  B : ℚ
  M₀ : ℚ
  η : ℚ
  M : ℚ
  X : ℚ
  ε : ℚ

def Budget.ok (b : Budget) : Prop :=
  (1 ≤ b.N ∧ 6 ≤ b.n ∧ b.n ≤ 94 ∧ b.lo < b.hi ∧ b.hi - b.lo ≤ 2 ∧ 4 ^ b.N * 8 ≤ 10 ^ b.n ∧ 1000 * b.N ^ 2 ≤ 10 ^ b.n ∧ 0 ≤ b.η ∧ |b.lo| ≤ b.X ∧ |b.hi| ≤ b.X) ∧
  b.M₀ + (b.η + b.N * (1 / 2 / 10 ^ 99 * b.M₀ + 1 / 2 / 10 ^ b.n)) *
    ∏ j ∈ Finset.range b.N, (((b.N : ℚ) / (j + 1)) ^ 2 * (101 / 100 / ((b.hi - b.lo) / 2))) ≤ b.M ∧
  b.B / (b.N + 1).factorial * (((b.hi - b.lo) / 2) ^ (b.N + 1) * (1 / 2 ^ (b.N - 1) + (b.N + 1) * (1 / 10 ^ b.n) * 2 ^ (b.N + 1))) +
    3 * (b.N + 1) * (nodeResidual b.N b.n (b.hi - b.lo) b.X b.M + b.η) ≤ b.ε

instance (b : Budget) : Decidable b.ok := by unfold Budget.ok; infer_instance

theorem Budget.within (b : Budget) (hb : b.ok) (ext : BdExt) (s : ApproxSpec) (lo hi : Dec) (hs : s.bounds = some (lo, hi)) (hlo : lo.val = b.lo) (hhi : hi.val = b.hi)
    (hpar : s.parity.accepts (b.N + 1)) (F : ℕ → ℝ → ℝ) (hF : DerivChain F (b.N + 1) b.lo b.hi) (hfit : ParityFits s.parity lo hi (F 0))
    (hB : ∀ t ∈ Set.Icc (b.lo : ℝ) b.hi, |F (b.N + 1) t| ≤ b.B) (hM₀ : ∀ i ≤ b.N, ∀ t ∈ Set.Icc (b.lo : ℝ) b.hi, |F i t| ≤ b.M₀ * i.factorial)
    (hsam : ∀ d : Dec, lo.val ≤ d.val → d.val ≤ hi.val → ∃ y, sampleAt ext s.target [s.var] b.n d = .ok y ∧ |(y.val : ℝ) - F 0 d.val| ≤ b.η) :
    WithinTerms ext s (b.N + 1) b.n (F 0) b.ε := by
  obtain ⟨⟨a1, a2, a3, a4, a5, a6, a7, a8, a9, a10⟩, a11, a12⟩ := hb
  rw [← hlo, ← hhi] at a4 a5 a11 a12
  rw [← hlo] at a9
  rw [← hhi] at a10
  rw [← hlo, ← hhi] at hF hB hM₀
  have c11 := (Rat.cast_le (K := ℝ)).2 a11
  have c12 := (Rat.cast_le (K := ℝ)).2 a12
  push_cast at c11 c12
  obtain ⟨terms, r, h1, h2, h3, h4⟩ := approx_terms ext s.target b.N b.n a1 a2 a3 lo hi a4 a5 a6 a7 [s.var] s.parity hpar F hF b.B b.M₀ b.η b.M b.X hB hM₀
    (by exact_mod_cast a8) hsam (by rw [ddAmp]; exact c11) a9 a10
  refine ⟨lo, hi, r, terms, hs, h1, h2, h3, by omega, hpar, fun t ht => ?_⟩
  refine (parity_sum hfit b.N (fun i => (valAt terms i : ℝ)) h4 ht).trans ?_
  rw [termError]
  exact c12

theorem turns_pow_bound (k : ℕ) (c : ℝ) (hc : |c| ≤ 1) : |(2 * Real.pi) ^ k * c| ≤ (62832 / 10000) ^ k := by
  rw [abs_mul, abs_of_nonneg (by positivity)]
  have h1 : (2 * Real.pi) ^ k ≤ (62832 / 10000) ^ k := pow_le_pow_left₀ (by positivity) (by linarith [Real.pi_lt_d6]) k
  have h2 : (0 : ℝ) ≤ (2 * Real.pi) ^ k := by positivity
  nlinarith [abs_nonneg c]

theorem turns_factorial_bound (k : ℕ) (c : ℝ) (hc : |c| ≤ 1) : |(2 * Real.pi) ^ k * c| ≤ 1100 * k.factorial := by
  rw [abs_mul, abs_of_nonneg (by positivity)]
  have h1 := two_pi_pow_le k
  have h2 : (0 : ℝ) ≤ (2 * Real.pi) ^ k := by positivity
  nlinarith [abs_nonneg c]

/-- The budget of `sin` and `cos` with `N + 1` terms and `n` digits. -/
def turnsBudget (N n : ℕ) (ε : ℚ) : Budget := ⟨N, n, -(1 / 2), 1 / 2, (62832 / 10000) ^ (N + 1), 1100, 3 * (1 / 10 ^ n), 1101, 1 / 2, ε⟩

theorem sin_terms (ext : BdExt) (N n : ℕ) (hN : (N + 1) % 2 = 0) (ε : ℚ) (h : (turnsBudget N n ε).ok) :
    WithinTerms ext .sin (N + 1) n (fun x => Real.sin (2 * Real.pi * x)) ε := by
  have hn := h.1
  have := (turnsBudget N n ε).within h ext .sin _ _ rfl (by show (⟨-5, 1⟩ : Dec).val = -(1 / 2); decide +kernel) (by show (⟨5, 1⟩ : Dec).val = 1 / 2; decide +kernel)
    hN _ (sinChain _ _ _) ⟨by decide +kernel, fun t => by simp [Real.sin_neg]⟩
    (fun t _ => by simp only [turnsBudget]; push_cast; exact turns_pow_bound _ _ (Real.abs_sin_le_one _))
    (fun i _ t _ => by simp only [turnsBudget]; push_cast; exact turns_factorial_bound _ _ (Real.abs_sin_le_one _))
    (fun d h3 h4 => by
      obtain ⟨y, h5, h6⟩ := sin_sample ext n hn.2.1 hn.2.2.1 d h3 h4
      refine ⟨y, h5, ?_⟩
      simp only [turnsBudget, pow_zero, one_mul, Nat.cast_zero, zero_mul, add_zero]
      push_cast
      exact h6)
  simpa [turnsBudget] using this

/-- **C81** `sin` with any even number of terms and enough digits for it. -/
theorem C81_sin (ext : BdExt) (N n : ℕ) (hN : (N + 1) % 2 = 0) (ε : ℚ) (h : (turnsBudget N n ε).ok) :
    Within ext .sin (N + 1) n (fun x => Real.sin (2 * Real.pi * x)) ε :=
  (sin_terms ext N n hN ε h).within

theorem cos_terms (ext : BdExt) (N n : ℕ) (hN : (N + 1) % 2 = 1) (ε : ℚ) (h : (turnsBudget N n ε).ok) :
    WithinTerms ext .cos (N + 1) n (fun x => Real.cos (2 * Real.pi * x)) ε := by
  have hn := h.1
  have := (turnsBudget N n ε).within h ext .cos _ _ rfl (by show (⟨-5, 1⟩ : Dec).val = -(1 / 2); decide +kernel) (by show (⟨5, 1⟩ : Dec).val = 1 / 2; decide +kernel)
    hN _ (cosChain _ _ _) ⟨by decide +kernel, fun t => by simp [Real.cos_neg]⟩
    (fun t _ => by simp only [turnsBudget]; push_cast; exact turns_pow_bound _ _ (Real.abs_cos_le_one _))
    (fun i _ t _ => by simp only [turnsBudget]; push_cast; exact turns_factorial_bound _ _ (Real.abs_cos_le_one _))
    (fun d h3 h4 => by
      obtain ⟨y, h5, h6⟩ := cos_sample ext n hn.2.1 hn.2.2.1 d h3 h4
      refine ⟨y, h5, ?_⟩
      simp only [turnsBudget, pow_zero, one_mul, Nat.cast_zero, zero_mul, add_zero]
      push_cast
      exact h6)
  simpa [turnsBudget] using this

/-- **C81** `cos` with any odd number of terms. -/
theorem C81_cos (ext : BdExt) (N n : ℕ) (hN : (N + 1) % 2 = 1) (ε : ℚ) (h : (turnsBudget N n ε).ok) :
    Within ext .cos (N + 1) n (fun x => Real.cos (2 * Real.pi * x)) ε :=
  (cos_terms ext N n hN ε h).within

/-- **C81** What the shipped program asks for: 12 terms at 20 digits and 24 terms at 40 digits. -/
theorem C81_sin_shipped (ext : BdExt) :
    Within ext .sin 12 20 (fun x => Real.sin (2 * Real.pi * x)) (2 / 10 ^ 6) ∧ Within ext .sin 24 40 (fun x => Real.sin (2 * Real.pi * x)) (4 / 10 ^ 19) :=
  ⟨C81_sin ext 11 20 rfl _ (by decide +kernel), C81_sin ext 23 40 rfl _ (by decide +kernel)⟩

/-- **C81** The same for `cos`: 13 and 25 terms. -/
theorem C81_cos_shipped (ext : BdExt) :
    Within ext .cos 13 20 (fun x => Real.cos (2 * Real.pi * x)) (3 / 10 ^ 7) ∧ Within ext .cos 25 40 (fun x => Real.cos (2 * Real.pi * x)) (5 / 10 ^ 20) :=
  ⟨C81_cos ext 12 20 rfl _ (by decide +kernel), C81_cos ext 24 40 rfl _ (by decide +kernel)⟩

/-! ### `exp2` and `exp_m1` -/

theorem exp2Chain (k : ℕ) (a b c : ℝ) : DerivChain (fun j x => Real.log 2 ^ j * (2 : ℝ) ^ x - if j = 0 then c else 0) k a b := by
  intro j _ x _
  have h := ((Real.hasStrictDerivAt_const_rpow (by norm_num : (0 : ℝ) < 2) x).hasDerivAt.const_mul (Real.log 2 ^ j)).sub_const (if j = 0 then c else 0)
  refine h.congr_deriv ?_
  simp only [if_neg (Nat.succ_ne_zero j), pow_succ]
  ring

theorem lnErr_two_le (n : ℕ) : lnErr n 2 0 ≤ 9 / 2 * (1 / 10 ^ n) := by
  have h2 := Real.log_two_lt_d9
  have h3 := Real.log_two_gt_d9
  have hp : (0 : ℝ) < 1 / 10 ^ n := by positivity
  rw [lnErr, abs_of_pos (by linarith)]
  simp only [zero_div, add_zero]
  nlinarith

theorem pow2_evals (ext : BdExt) (hf : 5 ≤ ext.fuel) (n : ℕ) (h1 : 6 ≤ n) (h2 : n ≤ 94) (d : Dec) (hd : |(d.val : ℝ)| ≤ 1 / 2) :
    EvalsTo ext n (.methodCall (ApproxSpec.num "2.0") "powf" [exprOfDec d]) ((2 : ℝ) ^ (d.val : ℝ)) (8 * (1 / 10 ^ n)) := by
  have hlit : EvalsTo ext n (ApproxSpec.num "2.0") ((2 : ℚ) : ℝ) 0 := C67_lit (by decide +kernel)
  push_cast at hlit
  have l1 := Real.log_two_lt_d9
  have l2 := Real.log_two_gt_d9
  have hp : (0 : ℝ) < 1 / 10 ^ n := by positivity
  have hp6 : (1 : ℝ) / 10 ^ n ≤ 1 / 10 ^ 6 := one_div_le_one_div_of_le (by positivity) (pow_le_pow_right₀ (by norm_num) h1)
  have hfr : (5 : ℝ) ≤ ext.fuel := by exact_mod_cast hf
  have he := lnErr_two_le n
  have he0 : 0 ≤ lnErr n 2 0 := by rw [lnErr]; simp only [zero_div, add_zero]; positivity
  have hpe : powErr n 2 0 d.val 0 ≤ 9 / 4 * (1 / 10 ^ n) := by
    rw [powErr]; simp only [mul_zero, zero_mul, add_zero]
    nlinarith [abs_nonneg (d.val : ℝ)]
  have hpe0 : 0 ≤ powErr n 2 0 d.val 0 := by
    rw [powErr]; simp only [mul_zero, zero_mul, add_zero]; positivity
  have := C67_pow (m := "powf") (Or.inl rfl) hlit (evalsTo_exprOfDec ext n d)
    ⟨by norm_num, by simp only [zero_div, add_zero]; rw [abs_of_pos (by linarith)]; linarith⟩ (B := 1) le_rfl (by omega) (by omega) (by
      rw [abs_mul, abs_of_pos (by linarith : (0 : ℝ) < Real.log 2)]
      push_cast
      nlinarith [abs_nonneg (d.val : ℝ)])
  refine this.mono ?_
  have hexp := Real.exp_one_lt_d9
  have : Real.exp ((1 : ℕ) : ℝ) ≤ 2.7182818286 := by push_cast; linarith
  nlinarith [Real.exp_pos ((1 : ℕ) : ℝ)]

theorem exp2_sample (ext : BdExt) (hf : 5 ≤ ext.fuel) (n : ℕ) (h1 : 6 ≤ n) (h2 : n ≤ 94) (d : Dec) (hd1 : (⟨-5, 1⟩ : Dec).val ≤ d.val) (hd2 : d.val ≤ (⟨5, 1⟩ : Dec).val) :
    ∃ y, sampleAt ext ApproxSpec.exp2.target ["x"] n d = .ok y ∧ |(y.val : ℝ) - (2 : ℝ) ^ (d.val : ℝ)| ≤ 8 * (1 / 10 ^ n) :=
  sampleAt_of_evalsTo rfl (pow2_evals ext hf n h1 h2 d (half_bounds hd1 hd2))

theorem exp_m1_sample (ext : BdExt) (hf : 5 ≤ ext.fuel) (n : ℕ) (h1 : 6 ≤ n) (h2 : n ≤ 94) (d : Dec) (hd1 : (⟨-5, 1⟩ : Dec).val ≤ d.val) (hd2 : d.val ≤ (⟨5, 1⟩ : Dec).val) :
    ∃ y, sampleAt ext ApproxSpec.exp_m1.target ["x"] n d = .ok y ∧ |(y.val : ℝ) - ((2 : ℝ) ^ (d.val : ℝ) - 1)| ≤ 8 * (1 / 10 ^ n) := by
  refine sampleAt_of_evalsTo rfl ?_
  have h : EvalsTo ext n (ApproxSpec.num "1.0") ((1 : ℚ) : ℝ) 0 := C67_lit (by decide +kernel)
  push_cast at h
  exact (C67_sub (pow2_evals ext hf n h1 h2 d (half_bounds hd1 hd2)) h).mono (by simp)

/-- The budget of `exp2` and `exp_m1` with `N + 1` terms and `n` digits. -/
def exp2Budget (N n : ℕ) (ε : ℚ) : Budget := ⟨N, n, -(1 / 2), 1 / 2, (6931472 / 10 ^ 7) ^ (N + 1) * (3 / 2), 3 / 2, 8 * (1 / 10 ^ n), 2, 1 / 2, ε⟩

theorem two_rpow_half {t : ℝ} (h1 : t ≤ 1 / 2) : (2 : ℝ) ^ t ≤ 3 / 2 := by
  calc (2 : ℝ) ^ t ≤ 2 ^ (1 / 2 : ℝ) := Real.rpow_le_rpow_of_exponent_le (by norm_num) h1
    _ = √2 := by rw [Real.sqrt_eq_rpow]
    _ ≤ 3 / 2 := by rw [Real.sqrt_le_left (by norm_num)]; norm_num

theorem exp2_pow_bound (k : ℕ) {t : ℝ} (ht : t ≤ 1 / 2) : |Real.log 2 ^ k * (2 : ℝ) ^ t| ≤ (6931472 / 10 ^ 7) ^ k * (3 / 2) := by
  have l1 := Real.log_two_lt_d9
  have l2 := Real.log_two_gt_d9
  have l0 : 0 ≤ Real.log 2 := by linarith
  rw [abs_of_nonneg (by positivity)]
  exact mul_le_mul (pow_le_pow_left₀ l0 (by linarith) k) (two_rpow_half ht) (by positivity) (by positivity)

theorem exp2_within_terms (ext : BdExt) (hf : 5 ≤ ext.fuel) (s : ApproxSpec) (N n : ℕ) (ε : ℚ) (h : (exp2Budget N n ε).ok) (c : ℝ) (hc : c = 0 ∨ c = 1)
    (hb : s.bounds = some (⟨-5, 1⟩, ⟨5, 1⟩)) (hp : s.parity = .neither)
    (hs : ∀ d : Dec, (⟨-5, 1⟩ : Dec).val ≤ d.val → d.val ≤ (⟨5, 1⟩ : Dec).val → ∃ y, sampleAt ext s.target [s.var] n d = .ok y ∧
      |(y.val : ℝ) - ((2 : ℝ) ^ (d.val : ℝ) - c)| ≤ 8 * (1 / 10 ^ n)) :
    WithinTerms ext s (N + 1) n (fun x => (2 : ℝ) ^ x - c) ε := by
  have := (exp2Budget N n ε).within h ext s _ _ hb (by show (⟨-5, 1⟩ : Dec).val = -(1 / 2); decide +kernel) (by show (⟨5, 1⟩ : Dec).val = 1 / 2; decide +kernel)
    (by rw [hp]; trivial) _ (exp2Chain _ _ _ c) (by rw [hp]; trivial)
    (fun t ht => by
      simp only [exp2Budget] at ht ⊢
      push_cast at ht ⊢
      rw [sub_zero]
      exact exp2_pow_bound _ ht.2)
    (fun i _ t ht => by
      simp only [exp2Budget] at ht ⊢
      push_cast at ht ⊢
      have hb := exp2_pow_bound i ht.2
      have hq : (6931472 / 10 ^ 7 : ℝ) ^ i ≤ 1 := pow_le_one₀ (by norm_num) (by norm_num)
      have hi : (1 : ℝ) ≤ i.factorial := by exact_mod_cast i.factorial_pos
      split_ifs with h0
      · subst h0
        have h2 := two_rpow_half ht.2
        have h3 : (0 : ℝ) < 2 ^ t := by positivity
        simp only [pow_zero, one_mul, Nat.factorial_zero, Nat.cast_one, mul_one]
        rcases hc with rfl | rfl <;> rw [abs_le] <;> constructor <;> linarith
      · rw [sub_zero]; nlinarith)
    (fun d h3 h4 => by
      obtain ⟨y, h5, h6⟩ := hs d h3 h4
      refine ⟨y, h5, ?_⟩
      simp only [exp2Budget, pow_zero, one_mul, if_true]
      push_cast
      exact h6)
  simpa [exp2Budget] using this

theorem exp2_terms (ext : BdExt) (hf : 5 ≤ ext.fuel) (N n : ℕ) (ε : ℚ) (h : (exp2Budget N n ε).ok) :
    WithinTerms ext .exp2 (N + 1) n (fun x => (2 : ℝ) ^ x) ε := by
  have := exp2_within_terms ext hf .exp2 N n ε h 0 (Or.inl rfl) rfl rfl (fun d h3 h4 => by
    obtain ⟨y, h5, h6⟩ := exp2_sample ext hf n h.1.2.1 h.1.2.2.1 d h3 h4
    exact ⟨y, h5, by rw [sub_zero]; exact h6⟩)
  simpa using this

/-- **C81** `exp2`. -/
theorem C81_exp2 (ext : BdExt) (hf : 5 ≤ ext.fuel) (N n : ℕ) (ε : ℚ) (h : (exp2Budget N n ε).ok) :
    Within ext .exp2 (N + 1) n (fun x => (2 : ℝ) ^ x) ε :=
  (exp2_terms ext hf N n ε h).within

theorem exp_m1_terms (ext : BdExt) (hf : 5 ≤ ext.fuel) (N n : ℕ) (ε : ℚ) (h : (exp2Budget N n ε).ok) :
    WithinTerms ext .exp_m1 (N + 1) n (fun x => (2 : ℝ) ^ x - 1) ε :=
  exp2_within_terms ext hf .exp_m1 N n ε h 1 (Or.inr rfl) rfl rfl (fun d h3 h4 => exp_m1_sample ext hf n h.1.2.1 h.1.2.2.1 d h3 h4)

/-- **C81** `exp_m1`. -/
theorem C81_exp_m1 (ext : BdExt) (hf : 5 ≤ ext.fuel) (N n : ℕ) (ε : ℚ) (h : (exp2Budget N n ε).ok) :
    Within ext .exp_m1 (N + 1) n (fun x => (2 : ℝ) ^ x - 1) ε :=
  (exp_m1_terms ext hf N n ε h).within

/-- **C81** 8 and 12 terms. -/
theorem C81_exp2_shipped (ext : BdExt) (hf : 5 ≤ ext.fuel) :
    Within ext .exp2 8 20 (fun x => (2 : ℝ) ^ x) (2 / 10 ^ 10) ∧ Within ext .exp2 12 40 (fun x => (2 : ℝ) ^ x) (1 / 10 ^ 17) :=
  ⟨C81_exp2 ext hf 7 20 _ (by decide +kernel), C81_exp2 ext hf 11 40 _ (by decide +kernel)⟩

/-- **C81** 8 and 12 terms. -/
theorem C81_exp_m1_shipped (ext : BdExt) (hf : 5 ≤ ext.fuel) :
    Within ext .exp_m1 8 20 (fun x => (2 : ℝ) ^ x - 1) (2 / 10 ^ 10) ∧ Within ext .exp_m1 12 40 (fun x => (2 : ℝ) ^ x - 1) (1 / 10 ^ 17) :=
  ⟨C81_exp_m1 ext hf 7 20 _ (by decide +kernel), C81_exp_m1 ext hf 11 40 _ (by decide +kernel)⟩

/-! ### `log2` -/

/-- The derivatives of `log2 (x + 3/2)`. -/
noncomputable def log2Deriv : ℕ → ℝ → ℝ
  | 0, x => Real.logb 2 (x + 3 / 2)
  | j + 1, x => (-1) ^ j * j.factorial * ((x + 3 / 2) ^ (j + 1))⁻¹ / Real.log 2

theorem log2Chain (k : ℕ) (a b : ℝ) (ha : -1 ≤ a) : DerivChain log2Deriv k a b := by
  intro j _ x hx
  have hpos : 0 < x + 3 / 2 := by linarith [hx.1]
  have hid : HasDerivAt (fun x : ℝ => x + 3 / 2) 1 x := (hasDerivAt_id x).add_const _
  cases j with
  | zero =>
    have h := (hid.log hpos.ne').div_const (Real.log 2)
    refine (h.congr_deriv ?_)
    simp only [log2Deriv, Nat.factorial_zero, Nat.cast_one, pow_zero, pow_one, one_mul, zero_add]
    ring
  | succ j =>
    have h := ((((hid.fun_pow (j + 1)).fun_inv (pow_pos hpos _).ne').const_mul ((-1) ^ j * (j.factorial : ℝ))).div_const (Real.log 2))
    refine h.congr_deriv ?_
    simp only [log2Deriv, Nat.factorial_succ, Nat.add_sub_cancel]
    push_cast
    generalize x + 3 / 2 = y at hpos
    have := hpos.ne'
    field_simp
    ring

theorem log2Deriv_bound (j : ℕ) {t : ℝ} (ht : -(1 / 2) ≤ t) : |log2Deriv (j + 1) t| ≤ 14427 / 10000 * j.factorial := by
  have l2 := Real.log_two_gt_d9
  have l0 : 0 < Real.log 2 := by linarith
  have h1 : (1 : ℝ) ≤ (t + 3 / 2) ^ (j + 1) := one_le_pow₀ (by linarith)
  have h2 : ((t + 3 / 2) ^ (j + 1))⁻¹ ≤ 1 := inv_le_one_of_one_le₀ h1
  have h3 : 0 ≤ ((t + 3 / 2) ^ (j + 1))⁻¹ := by positivity
  have hf : (0 : ℝ) ≤ j.factorial := by positivity
  rw [log2Deriv, abs_div, abs_mul, abs_mul, abs_pow, abs_neg, abs_one, one_pow, one_mul, abs_of_nonneg hf, abs_of_nonneg h3, abs_of_pos l0, div_le_iff₀ l0]
  nlinarith

theorem log2_sample (ext : BdExt) (hf : 5 ≤ ext.fuel) (n : ℕ) (h1 : 6 ≤ n) (h2 : n ≤ 94) (d : Dec) (hd1 : (⟨-5, 1⟩ : Dec).val ≤ d.val) (hd2 : d.val ≤ (⟨5, 1⟩ : Dec).val) :
    ∃ y, sampleAt ext ApproxSpec.log2.target ["x"] n d = .ok y ∧ |(y.val : ℝ) - Real.logb 2 (d.val + 3 / 2)| ≤ 27 * (1 / 10 ^ n) := by
  have hd := abs_le.1 (half_bounds hd1 hd2)
  refine sampleAt_of_evalsTo rfl ?_
  have hlit : EvalsTo ext n (ApproxSpec.num "1.5") ((3 / 2 : ℚ) : ℝ) 0 := C67_lit (by decide +kernel)
  push_cast at hlit
  have hadd := C67_paren (C67_add (evalsTo_exprOfDec ext n d) hlit)
  rw [add_zero] at hadd
  have l1 := Real.log_two_lt_d9
  have l2 := Real.log_two_gt_d9
  have l0 : 0 < Real.log 2 := by linarith
  have hfr : (5 : ℝ) ≤ ext.fuel := by exact_mod_cast hf
  have hp : (0 : ℝ) < 1 / 10 ^ n := by positivity
  have hp6 : (1 : ℝ) / 10 ^ n ≤ 1 / 10 ^ 6 := one_div_le_one_div_of_le (by positivity) (pow_le_pow_right₀ (by norm_num) h1)
  have hp99 : (1 : ℝ) / 10 ^ 99 ≤ 1 / 10 ^ 5 * (1 / 10 ^ n) := by
    rw [one_div_mul_one_div, ← pow_add]
    exact one_div_le_one_div_of_le (by positivity) (pow_le_pow_right₀ (by norm_num) (by omega))
  set v := (d.val : ℝ) + 3 / 2 with hv
  have hv1 : 1 ≤ v := by rw [hv]; linarith [hd.1]
  have hv2 : v ≤ 2 := by rw [hv]; linarith [hd.2]
  have hl0 : 0 ≤ Real.log v := Real.log_nonneg hv1
  have hl1 : Real.log v ≤ Real.log 2 := Real.log_le_log (by linarith) hv2
  have hb0 : 0 ≤ Real.logb 2 v := Real.logb_nonneg (by norm_num) hv1
  have hb1 : Real.logb 2 v ≤ 1 := by rw [Real.logb, div_le_one l0]; exact hl1
  have he := lnErr_two_le n
  have he0 : 0 ≤ lnErr n 2 0 := by rw [lnErr]; simp only [zero_div, add_zero]; positivity
  have hev : lnErr n v 0 ≤ 9 / 2 * (1 / 10 ^ n) := by
    rw [lnErr, abs_of_nonneg hl0]; simp only [zero_div, add_zero]; nlinarith
  have := C67_log2 hadd ⟨by linarith, by simp only [zero_div, add_zero]; rw [abs_of_nonneg hl0]; linarith⟩
    ⟨by norm_num, by simp only [zero_div, add_zero]; rw [abs_of_pos l0]; linarith⟩ (by omega) (by omega) (by rw [abs_of_pos l0]; linarith)
  refine this.mono ?_
  rw [abs_of_nonneg hb0, abs_of_pos l0]
  have hq : 2 * (lnErr n v 0 + Real.logb 2 v * lnErr n 2 0) / Real.log 2 ≤ 26 * (1 / 10 ^ n) := by
    rw [div_le_iff₀ l0]; nlinarith
  have h99 : (1 : ℝ) / 10 ^ 99 ≤ 1 / 10 ^ 5 := by
    have : (1 : ℝ) / 10 ^ n ≤ 1 := hp6.trans (by norm_num)
    nlinarith
  have h990 : (0 : ℝ) ≤ 1 / 10 ^ 99 := by positivity
  have := mul_le_mul_of_nonneg_left hq (by positivity : (0 : ℝ) ≤ 1 + 1 / 10 ^ 99)
  nlinarith

/-- The budget of `log2` with `N + 1` terms and `n` digits. -/
def log2Budget (N n : ℕ) (ε : ℚ) : Budget := ⟨N, n, -(1 / 2), 1 / 2, 14427 / 10000 * N.factorial, 2, 27 * (1 / 10 ^ n), 3, 1 / 2, ε⟩

theorem log2_terms (ext : BdExt) (hf : 5 ≤ ext.fuel) (N n : ℕ) (ε : ℚ) (h : (log2Budget N n ε).ok) :
    WithinTerms ext .log2 (N + 1) n (fun x => Real.logb 2 (x + 3 / 2)) ε := by
  have := (log2Budget N n ε).within h ext .log2 _ _ rfl (by show (⟨-5, 1⟩ : Dec).val = -(1 / 2); decide +kernel) (by show (⟨5, 1⟩ : Dec).val = 1 / 2; decide +kernel)
    trivial log2Deriv (log2Chain _ _ _ (by simp only [log2Budget]; norm_num)) trivial
    (fun t ht => by
      simp only [log2Budget] at ht ⊢
      push_cast at ht ⊢
      exact log2Deriv_bound N ht.1)
    (fun i _ t ht => by
      simp only [log2Budget] at ht ⊢
      push_cast at ht ⊢
      cases i with
      | zero =>
        have l2 := Real.log_two_gt_d9
        simp only [log2Deriv, Nat.factorial_zero, Nat.cast_one, mul_one]
        have h1 : 0 ≤ Real.logb 2 (t + 3 / 2) := Real.logb_nonneg (by norm_num) (by linarith [ht.1])
        have h2 : Real.logb 2 (t + 3 / 2) ≤ 1 := by
          rw [Real.logb, div_le_one (by linarith)]; exact Real.log_le_log (by linarith [ht.1]) (by linarith [ht.2])
        rw [abs_of_nonneg h1]; linarith
      | succ j =>
        refine (log2Deriv_bound j ht.1).trans ?_
        have : (j.factorial : ℝ) ≤ (j + 1).factorial := by exact_mod_cast Nat.factorial_le (by omega)
        nlinarith [(by positivity : (0 : ℝ) ≤ j.factorial)])
    (fun d h3 h4 => by
      obtain ⟨y, h5, h6⟩ := log2_sample ext hf n h.1.2.1 h.1.2.2.1 d h3 h4
      refine ⟨y, h5, ?_⟩
      simp only [log2Budget]
      push_cast
      exact h6)
  exact this

/-- **C81** `log2`. -/
theorem C81_log2 (ext : BdExt) (hf : 5 ≤ ext.fuel) (N n : ℕ) (ε : ℚ) (h : (log2Budget N n ε).ok) :
    Within ext .log2 (N + 1) n (fun x => Real.logb 2 (x + 3 / 2)) ε :=
  (log2_terms ext hf N n ε h).within

/-- **C81** 10 and 20 terms. -/
theorem C81_log2_shipped (ext : BdExt) (hf : 5 ≤ ext.fuel) :
    Within ext .log2 10 20 (fun x => Real.logb 2 (x + 3 / 2)) (6 / 10 ^ 7) ∧ Within ext .log2 20 40 (fun x => Real.logb 2 (x + 3 / 2)) (3 / 10 ^ 13) :=
  ⟨C81_log2 ext hf 9 20 _ (by decide +kernel), C81_log2 ext hf 19 40 _ (by decide +kernel)⟩

/-! ### `atan` -/

/-- The derivatives of the arctangent. -/
noncomputable def atanDeriv : ℕ → ℝ → ℝ
  | 0, x => Real.arctan x
  | j + 1, x => j.factorial * Real.cos (Real.arctan x) ^ (j + 1) * Real.sin ((j + 1) * (Real.arctan x + Real.pi / 2))

theorem atanChain (k : ℕ) (a b : ℝ) : DerivChain atanDeriv k a b := by
  intro j _ x _
  have hc : 1 / (1 + x ^ 2) = Real.cos (Real.arctan x) ^ 2 := (Real.cos_sq_arctan x).symm
  have ha := Real.hasDerivAt_arctan x
  rw [hc] at ha
  cases j with
  | zero =>
    refine ha.congr_deriv ?_
    simp [atanDeriv, Real.sin_add_pi_div_two]
    ring
  | succ j =>
    have h1 := (ha.cos.fun_pow (j + 1)).const_mul (j.factorial : ℝ)
    have h2 := ((ha.add_const (Real.pi / 2)).const_mul ((j : ℝ) + 1)).sin
    refine (h1.mul h2).congr_deriv ?_
    simp only [atanDeriv, Nat.factorial_succ, Nat.add_sub_cancel]
    push_cast
    set θ := Real.arctan x
    set φ := ((j : ℝ) + 1) * (θ + Real.pi / 2)
    have e : ((j : ℝ) + 1 + 1) * (θ + Real.pi / 2) = φ + (θ + Real.pi / 2) := by simp only [φ]; ring
    rw [e, Real.sin_add, Real.sin_add_pi_div_two, Real.cos_add_pi_div_two]
    ring

theorem atanDeriv_bound (j : ℕ) (t : ℝ) : |atanDeriv (j + 1) t| ≤ j.factorial := by
  have hf : (0 : ℝ) ≤ j.factorial := by positivity
  rw [atanDeriv, abs_mul, abs_mul, abs_pow, abs_of_nonneg hf]
  have h1 : |Real.cos (Real.arctan t)| ^ (j + 1) ≤ 1 := pow_le_one₀ (abs_nonneg _) (Real.abs_cos_le_one _)
  have h2 := Real.abs_sin_le_one (((j : ℝ) + 1) * (Real.arctan t + Real.pi / 2))
  have := mul_le_mul (mul_le_mul_of_nonneg_left h1 hf) h2 (abs_nonneg _) (by positivity)
  linarith

theorem atan_sample (ext : BdExt) (hs : SqrtOk ext) (hf : 3 ≤ ext.fuel) (n : ℕ) (h1 : 6 ≤ n) (h2 : n ≤ 94) (d : Dec) :
    ∃ y, sampleAt ext ApproxSpec.atan.target ["x"] n d = .ok y ∧ |(y.val : ℝ) - Real.arctan d.val| ≤ 1 / 10 ^ n := by
  refine sampleAt_of_evalsTo rfl ?_
  exact (C67_atan hs hf (evalsTo_exprOfDec ext n d) (by omega) (by omega)).mono (by simp)

/-- The budget of `atan` with `N + 1` terms and `n` digits. -/
def atanBudget (N n : ℕ) (ε : ℚ) : Budget := ⟨N, n, -1, 1, N.factorial, 1, 1 / 10 ^ n, 2, 1, ε⟩

theorem atan_terms (ext : BdExt) (hs : SqrtOk ext) (hf : 3 ≤ ext.fuel) (N n : ℕ) (hN : (N + 1) % 2 = 0) (ε : ℚ) (h : (atanBudget N n ε).ok) :
    WithinTerms ext .atan (N + 1) n Real.arctan ε := by
  have := (atanBudget N n ε).within h ext .atan _ _ rfl (by show (⟨-1, 0⟩ : Dec).val = -1; decide +kernel) (by show (⟨1, 0⟩ : Dec).val = 1; decide +kernel)
    hN atanDeriv (atanChain _ _ _) ⟨by decide +kernel, fun t => Real.arctan_neg t⟩
    (fun t _ => by simp only [atanBudget]; push_cast; exact atanDeriv_bound N t)
    (fun i _ t ht => by
      simp only [atanBudget] at ht ⊢
      push_cast at ht ⊢
      cases i with
      | zero =>
        simp only [atanDeriv, Nat.factorial_zero, Nat.cast_one, mul_one]
        have h1 := Real.arctan_mono ht.1
        have h2 := Real.arctan_mono ht.2
        rw [Real.arctan_neg] at h1
        rw [Real.arctan_one] at h1 h2
        rw [abs_le]
        constructor <;> linarith [Real.pi_lt_d2]
      | succ j =>
        refine (atanDeriv_bound j t).trans ?_
        have : (j.factorial : ℝ) ≤ (j + 1).factorial := by exact_mod_cast Nat.factorial_le (by omega)
        linarith)
    (fun d h3 h4 => by
      obtain ⟨y, h5, h6⟩ := atan_sample ext hs hf n h.1.2.1 h.1.2.2.1 d
      refine ⟨y, h5, ?_⟩
      simp only [atanBudget]
      push_cast
      exact h6)
  exact this

/-- **C81** `atan`. -/
theorem C81_atan (ext : BdExt) (hs : SqrtOk ext) (hf : 3 ≤ ext.fuel) (N n : ℕ) (hN : (N + 1) % 2 = 0) (ε : ℚ) (h : (atanBudget N n ε).ok) :
    Within ext .atan (N + 1) n Real.arctan ε :=
  (atan_terms ext hs hf N n hN ε h).within

/-- **C81** 16 and 36 terms. -/
theorem C81_atan_shipped (ext : BdExt) (hs : SqrtOk ext) (hf : 3 ≤ ext.fuel) :
    Within ext .atan 16 20 Real.arctan (4 / 10 ^ 6) ∧ Within ext .atan 36 40 Real.arctan (2 / 10 ^ 12) :=
  ⟨C81_atan ext hs hf 15 20 rfl _ (by decide +kernel), C81_atan ext hs hf 35 40 rfl _ (by decide +kernel)⟩

example : Within goodExt .atan 16 20 Real.arctan (4 / 10 ^ 6) := (C81_atan_shipped goodExt goodExt_ok (by decide)).1

/-- A request of one's own: six terms and ten digits for the sine. -/
example : Within goodExt .sin 6 10 (fun x => Real.sin (2 * Real.pi * x)) (1 / 10) := C81_sin goodExt 5 10 rfl _ (by decide +kernel)

end Verif

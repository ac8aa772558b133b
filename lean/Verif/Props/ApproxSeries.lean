import Verif.Props.ApproxError
import Verif.Lemmas.SeriesError
import Verif.Lemmas.ArcsinSeries
import Verif.Lemmas.TanSeries

/-!
# C81, continued: targets given by a power series

The derivatives of the inverse sine grow too fast for `C81_uniform` on the interval of `inv_trig.rs`.  What is used here instead is
that the target is the sum of a power series on a larger interval.
-/

namespace Verif
open Dec Polynomial

/-- **C81** Let the target be the sum of a power series on `[-w, w]`, absolutely summable at `w + r` and at `w (ρ + 1/ρ) / 2`.  If every
sample can be evaluated with error at most `η`, then `approx` returns, and at every point of the interval the returned expression is
as close as the sum over `ρ` to the `N + 1` says, plus what the decimals can contribute. -/
theorem C81_series {ι : Type} (ext : BdExt) (e : Expr) (N n : ℕ) (hN : 1 ≤ N) (h1 : 6 ≤ n) (h2 : n ≤ 94) (xmin xmax : Dec) (hlt : xmin.val < xmax.val)
    (hsym : xmin.val = -xmax.val) (hw : xmax.val ≤ 1) (h4 : 4 ^ N * 8 ≤ 10 ^ n) (hN2 : 1000 * N ^ 2 ≤ 10 ^ n) (x : Name) (parity : Parity)
    (hpar : parity.accepts (N + 1)) (f : ℝ → ℝ) (hfit : ParityFits parity xmin xmax f) (c : ι → ℝ) (k : ι → ℕ)
    (hf : ∀ t : ℝ, |t| ≤ xmax.val → HasSum (fun j => c j * t ^ k j) (f t))
    (ρ r S R η : ℝ) (M : ℚ) (hρ : silver ≤ ρ) (hr : 0 < r) (hr1 : r ≤ 1)
    (hS : HasSum (fun j => |c j| * (xmax.val * ((ρ + ρ⁻¹) / 2)) ^ k j) S) (hR : HasSum (fun j => |c j| * (xmax.val + r) ^ k j) R)
    (hη : 0 ≤ η) (hs : ∀ d : Dec, xmin.val ≤ d.val → d.val ≤ xmax.val → ∃ y, sampleAt ext e x n d = .ok y ∧ |(y.val : ℝ) - f d.val| ≤ η)
    (hM : R / r ^ N + (η + N * (1 / 2 / 10 ^ 99 * (R / r ^ N) + 1 / 2 / 10 ^ n)) * ddAmp N xmax.val ≤ M) :
    ∃ terms p, approx ext e (N + 1) xmin xmax x parity n = .ok p ∧ mulAddPolynomial terms x parity = .ok p ∧ terms.length = N + 1 ∧
      ∀ t ∈ Set.Icc (xmin.val : ℝ) xmax.val, |∑ i ∈ Finset.range (N + 1), (if parity.keeps i then (valAt terms i : ℝ) * t ^ i else 0) - f t| ≤
        2 / ρ ^ (N + 1) * S + 3 * (N + 1) * (2 / ρ ^ (N + 1) * S + (nodeResidual N n (2 * xmax.val) xmax.val M + η)) := by
  have hpos : 0 < xmax.val := by linarith
  have hpos' : (0 : ℝ) < xmax.val := by exact_mod_cast hpos
  have hdiff : xmax.val - xmin.val = 2 * xmax.val := by rw [hsym]; ring
  have hdiff' : ((xmax.val : ℝ) - xmin.val) / 2 = xmax.val := by rw [hsym]; push_cast; ring
  have hsym' : (xmin.val : ℝ) = -xmax.val := by rw [hsym]; push_cast; ring
  have h0 : HasSum (fun j => |c j| * (xmax.val : ℝ) ^ k j) (∑' j, |c j| * (xmax.val : ℝ) ^ k j) := by
    refine (Summable.of_nonneg_of_le (fun j => by positivity) (fun j => ?_) hR.summable).hasSum
    exact mul_le_mul_of_nonneg_left (pow_le_pow_left₀ hpos'.le (by linarith) _) (abs_nonneg _)
  have hnear := nearPoly_of_series f c k N hρ hpos' hf h0 hS
  have hdd := ddBounded_of_series f c k N hpos'.le hr hr1 hf hR
  rw [← hsym'] at hdd
  obtain ⟨terms, p, a1, a2, a3, a4⟩ := approx_terms_near ext e N n hN h1 h2 xmin xmax hlt hsym (by rw [hdiff]; linarith) h4 hN2 x parity hpar f (R / r ^ N) η M xmax.val
    hdd _ _ hnear hη hs (by rw [hdiff']; exact hM) (by rw [hsym, abs_neg, abs_of_pos hpos]) (by rw [abs_of_pos hpos])
  rw [hdiff] at a4
  exact ⟨terms, p, a1, a2, a3, fun t ht => parity_sum hfit N (fun i => (valAt terms i : ℝ)) a4 ht⟩

/-- The numbers of `C81_series`, as rationals: `τ` bounds `2 S / ρ ^ (N + 1)` and `M₀` bounds `R / r ^ N`. -/
structure SeriesBudget where
  N : ℕ
  n : ℕ
  hi : ℚ
  τ : ℚ
  M₀ : ℚ
  η : ℚ
  M : ℚ
  ε : ℚ

def SeriesBudget.ok (b : SeriesBudget) : Prop :=
  (1 ≤ b.N ∧ 6 ≤ b.n ∧ b.n ≤ 94 ∧ 0 < b.hi ∧ b.hi ≤ 1 ∧ 4 ^ b.N * 8 ≤ 10 ^ b.n ∧ 1000 * b.N ^ 2 ≤ 10 ^ b.n ∧ 0 ≤ b.η) ∧
  b.M₀ + (b.η + b.N * (1 / 2 / 10 ^ 99 * b.M₀ + 1 / 2 / 10 ^ b.n)) *
    ∏ j ∈ Finset.range b.N, (((b.N : ℚ) / (j + 1)) ^ 2 * (101 / 100 / b.hi)) ≤ b.M ∧
  b.τ + 3 * (b.N + 1) * (b.τ + (nodeResidual b.N b.n (2 * b.hi) b.hi b.M + b.η)) ≤ b.ε

instance (b : SeriesBudget) : Decidable b.ok := by unfold SeriesBudget.ok; infer_instance

theorem SeriesBudget.within {ι : Type} (b : SeriesBudget) (hb : b.ok) (ext : BdExt) (s : ApproxSpec) (lo hi : Dec) (hs : s.bounds = some (lo, hi)) (hlo : lo.val = -b.hi)
    (hhi : hi.val = b.hi) (hpar : s.parity.accepts (b.N + 1)) (f : ℝ → ℝ) (hfit : ParityFits s.parity lo hi f) (c : ι → ℝ) (k : ι → ℕ)
    (hf : ∀ t : ℝ, |t| ≤ b.hi → HasSum (fun j => c j * t ^ k j) (f t))
    (ρ r S R : ℝ) (hρ : silver ≤ ρ) (hr : 0 < r) (hr1 : r ≤ 1)
    (hS : HasSum (fun j => |c j| * (b.hi * ((ρ + ρ⁻¹) / 2)) ^ k j) S) (hR : HasSum (fun j => |c j| * (b.hi + r) ^ k j) R)
    (hτ : 2 / ρ ^ (b.N + 1) * S ≤ b.τ) (hM₀ : R / r ^ b.N ≤ b.M₀)
    (hsam : ∀ d : Dec, lo.val ≤ d.val → d.val ≤ hi.val → ∃ y, sampleAt ext s.target [s.var] b.n d = .ok y ∧ |(y.val : ℝ) - f d.val| ≤ b.η) :
    WithinTerms ext s (b.N + 1) b.n f b.ε := by
  obtain ⟨⟨a1, a2, a3, a4, a5, a6, a7, a8⟩, a11, a12⟩ := hb
  have c11 := (Rat.cast_le (K := ℝ)).2 a11
  have c12 := (Rat.cast_le (K := ℝ)).2 a12
  push_cast at c11 c12
  have hpos' : (0 : ℝ) < b.hi := by exact_mod_cast a4
  have hamp : 0 ≤ ddAmp b.N b.hi := by
    unfold ddAmp
    exact Finset.prod_nonneg fun j _ => by positivity
  have hM : R / r ^ b.N + (b.η + b.N * (1 / 2 / 10 ^ 99 * (R / r ^ b.N) + 1 / 2 / 10 ^ b.n)) * ddAmp b.N b.hi ≤ b.M := by
    refine le_trans ?_ (show _ + _ * ddAmp b.N b.hi ≤ _ from c11)
    gcongr
  obtain ⟨terms, p, h1, h2, h3, h4⟩ := C81_series ext s.target b.N b.n a1 a2 a3 lo hi (by rw [hlo, hhi]; linarith) (by rw [hlo, hhi]) (by rw [hhi]; exact a5) a6 a7
    [s.var] s.parity hpar f hfit c k (by rw [hhi]; exact hf) ρ r S R b.η b.M hρ hr hr1 (by rw [hhi]; exact hS) (by rw [hhi]; exact hR)
    (by exact_mod_cast a8) hsam (by rw [hhi]; exact hM)
  refine ⟨lo, hi, p, terms, hs, h1, h2, h3, by omega, hpar, fun t ht => (h4 t ht).trans ?_⟩
  rw [hhi]
  refine le_trans ?_ c12
  gcongr

/-! ### `asin` and `acos` -/

/-- The budget of `asin` and `acos` with `N + 1` terms and `n` digits. -/
def asinBudget (N n : ℕ) (ε : ℚ) : SeriesBudget :=
  ⟨N, n, 70710678118654752440 / 10 ^ 20, 3141593 / 10 ^ 6 / (2414213 / 10 ^ 6) ^ (N + 1), 16 / 10 / (29 / 100) ^ N, 1 / 10 ^ n, 17 / 10 / (29 / 100) ^ N, ε⟩

theorem asin_sample (ext : BdExt) (hs : SqrtOk ext) (hf : 3 ≤ ext.fuel) (n : ℕ) (h1 : 6 ≤ n) (h2 : n ≤ 94) (d : Dec) (hd : |(d.val : ℝ)| ≤ 1) :
    ∃ y, sampleAt ext ApproxSpec.asin.target ["x"] n d = .ok y ∧ |(y.val : ℝ) - Real.arcsin d.val| ≤ 1 / 10 ^ n :=
  sampleAt_of_evalsTo (s := .methodCall (exprOfDec d) "asin" []) rfl
    ((C67_asin hs hf (evalsTo_exprOfDec ext n d) (Or.inr ⟨rfl, hd⟩) (by omega) h2).mono (by simp))

theorem asin_within (ext : BdExt) (hs : SqrtOk ext) (hf : 3 ≤ ext.fuel) (s : ApproxSpec) (ht : s.target = ApproxSpec.asin.target) (hv : s.var = "x")
    (hp : s.parity = .odd) (hb : s.bounds = some (⟨-70710678118654752440, 20⟩, ⟨70710678118654752440, 20⟩)) (N n : ℕ) (hN : (N + 1) % 2 = 0) (ε : ℚ)
    (h : (asinBudget N n ε).ok) : WithinTerms ext s (N + 1) n Real.arcsin ε := by
  have hlo : (⟨-70710678118654752440, 20⟩ : Dec).val = -(70710678118654752440 / 10 ^ 20) := by decide +kernel
  have hhi : (⟨70710678118654752440, 20⟩ : Dec).val = 70710678118654752440 / 10 ^ 20 := by decide +kernel
  have hq1 : (29 / 100 : ℝ) + 70710678118654752440 / 10 ^ 20 < 1 := by norm_num
  have hcast : (((70710678118654752440 / 10 ^ 20 : ℚ)) : ℝ) = 70710678118654752440 / 10 ^ 20 := by push_cast; ring
  have habs : ∀ j, |isqrtCoeff j / (2 * j + 1)| = isqrtCoeff j / (2 * j + 1) := fun j => abs_of_pos (div_pos (isqrtCoeff_pos j) (by positivity))
  have hsil : 0 < silver := by unfold silver; positivity
  have hsq : (70710678118654752440 / 10 ^ 20 : ℝ) * √2 < 1 := by
    have : (√2 : ℝ) < 14142135623730950488016888 / 10 ^ 25 := by
      rw [Real.sqrt_lt' (by norm_num)]; norm_num
    nlinarith
  have hS := hasSum_arcsin (x := (70710678118654752440 / 10 ^ 20 : ℝ) * √2) (by rw [abs_of_nonneg (by positivity)]; exact hsq)
  have hR := hasSum_arcsin (x := (70710678118654752440 / 10 ^ 20 : ℝ) + 29 / 100) (by rw [abs_of_nonneg (by positivity)]; linarith)
  have hpi := Real.pi_lt_d6
  have hSle := Real.arcsin_le_pi_div_two ((70710678118654752440 / 10 ^ 20 : ℝ) * √2)
  have hRle := Real.arcsin_le_pi_div_two ((70710678118654752440 / 10 ^ 20 : ℝ) + 29 / 100)
  refine (asinBudget N n ε).within h ext s _ _ hb (by rw [hlo]; rfl) (by rw [hhi]; rfl) (by rw [hp]; exact hN) Real.arcsin
    (by rw [hp]; exact ⟨by rw [hlo, hhi], fun t => Real.arcsin_neg t⟩) (fun j => isqrtCoeff j / (2 * j + 1)) (fun j => 2 * j + 1) ?_ silver (29 / 100)
    (Real.arcsin (70710678118654752440 / 10 ^ 20 * √2)) (Real.arcsin (70710678118654752440 / 10 ^ 20 + 29 / 100)) le_rfl
    (by norm_num) (by norm_num) ?_ ?_ ?_ ?_ ?_
  · intro t ht
    simp only [asinBudget] at ht
    rw [hcast] at ht
    exact hasSum_arcsin (ht.trans_lt (by norm_num))
  · simp only [asinBudget, habs]
    rw [silver_joukowski, hcast]
    exact hS
  · simp only [asinBudget, habs]
    rw [hcast]
    exact hR
  · simp only [asinBudget]
    push_cast
    have h1 : (2414213 / 10 ^ 6 : ℝ) ≤ silver := by
      unfold silver
      have : (1414213 / 10 ^ 6 : ℝ) ≤ √2 := Real.le_sqrt_of_sq_le (by norm_num)
      linarith
    rw [div_mul_eq_mul_div]
    refine div_le_div₀ (by norm_num) (by linarith) (by positivity) (pow_le_pow_left₀ (by norm_num) h1 _)
  · simp only [asinBudget]
    push_cast
    gcongr
    linarith
  · intro d h3 h4
    obtain ⟨y, h5, h6⟩ := asin_sample ext hs hf n h.1.2.1 h.1.2.2.1 d (by
      rw [hlo] at h3
      rw [hhi] at h4
      have h3' := (Rat.cast_le (K := ℝ)).2 h3
      have h4' := (Rat.cast_le (K := ℝ)).2 h4
      push_cast at h3' h4'
      rw [abs_le]
      constructor <;> norm_num at h3' h4' ⊢ <;> linarith)
    refine ⟨y, by rw [ht, hv]; exact h5, ?_⟩
    simp only [asinBudget]
    push_cast
    exact h6

/-- **C81** `asin` with any even number of terms and enough digits for it. -/
theorem C81_asin (ext : BdExt) (hs : SqrtOk ext) (hf : 3 ≤ ext.fuel) (N n : ℕ) (hN : (N + 1) % 2 = 0) (ε : ℚ) (h : (asinBudget N n ε).ok) :
    Within ext .asin (N + 1) n Real.arcsin ε :=
  (asin_within ext hs hf .asin rfl rfl rfl rfl N n hN ε h).within

/-- **C81** The request of `acos` is for the same target. -/
theorem C81_acos (ext : BdExt) (hs : SqrtOk ext) (hf : 3 ≤ ext.fuel) (N n : ℕ) (hN : (N + 1) % 2 = 0) (ε : ℚ) (h : (asinBudget N n ε).ok) :
    Within ext .acos (N + 1) n Real.arcsin ε :=
  (asin_within ext hs hf .acos rfl rfl rfl rfl N n hN ε h).within

/-- **C81** 16 and 36 terms. -/
theorem C81_asin_shipped (ext : BdExt) (hs : SqrtOk ext) (hf : 3 ≤ ext.fuel) :
    Within ext .asin 16 20 Real.arcsin (2 / 10 ^ 4) ∧ Within ext .asin 36 40 Real.arcsin (6 / 10 ^ 12) :=
  ⟨C81_asin ext hs hf 15 20 rfl _ (by decide +kernel), C81_asin ext hs hf 35 40 rfl _ (by decide +kernel)⟩

/-- **C81** 16 and 34 terms. -/
theorem C81_acos_shipped (ext : BdExt) (hs : SqrtOk ext) (hf : 3 ≤ ext.fuel) :
    Within ext .acos 16 20 Real.arcsin (2 / 10 ^ 4) ∧ Within ext .acos 34 40 Real.arcsin (4 / 10 ^ 11) :=
  ⟨C81_acos ext hs hf 15 20 rfl _ (by decide +kernel), C81_acos ext hs hf 33 40 rfl _ (by decide +kernel)⟩

example : Within goodExt .asin 36 40 Real.arcsin (6 / 10 ^ 12) := (C81_asin_shipped goodExt goodExt_ok (by decide)).2

/-! ### `tan` -/

/-- The budget of `tan` with `N + 1` terms and `n` digits. -/
def tanBudget (N n : ℕ) (ε : ℚ) : SeriesBudget :=
  ⟨N, n, 499999 / 10 ^ 6, 28 / (54 / 10) ^ (N + 1), 14 / (9 / 10) ^ N, 10 ^ 7 * (1 / 10 ^ n), 15 / (9 / 10) ^ N, ε⟩

theorem tan_sample (ext : BdExt) (n : ℕ) (h1 : 7 ≤ n) (h2 : n ≤ 94) (d : Dec) (hd : |(d.val : ℝ)| ≤ 499999 / 10 ^ 6) :
    ∃ y, sampleAt ext ApproxSpec.tan.target ["x"] n d = .ok y ∧ |(y.val : ℝ) - Real.tan (Real.pi * d.val) * ((d.val : ℝ) ^ 2 - 1 / 4)| ≤ 10 ^ 7 * (1 / 10 ^ n) := by
  set p : ℝ := 1 / 10 ^ n with hp
  set v : ℝ := (d.val : ℝ) with hv
  set u : ℝ := 1 / 2 - |v| with hu
  have hp0 : 0 < p := by positivity
  have hp1 : p ≤ 1 / 10 ^ 7 := by
    rw [hp]
    exact one_div_le_one_div_of_le (by positivity) (pow_le_pow_right₀ (by norm_num) h1)
  have hu1 : 1 / 10 ^ 6 ≤ u := by rw [hu]; norm_num at hd ⊢; linarith
  have hu2 : u ≤ 1 / 2 := by rw [hu]; linarith [abs_nonneg v]
  have hpi := Real.pi_gt_three
  have hpi2 := Real.pi_lt_d2
  have habs : |v * Real.pi| = Real.pi / 2 - Real.pi * u := by
    rw [abs_mul, abs_of_pos Real.pi_pos, hu]; ring
  have hcos : 2 * u ≤ Real.cos (v * Real.pi) := by
    rw [← Real.cos_abs, habs, Real.cos_pi_div_two_sub]
    have := Real.mul_le_sin (x := Real.pi * u) (by positivity) (by nlinarith)
    rw [show 2 / Real.pi * (Real.pi * u) = 2 * u by field_simp] at this
    exact this
  have hcos' : |Real.cos (v * Real.pi)| = Real.cos (v * Real.pi) := abs_of_pos (by linarith)
  have e1 := (C67_paren (C67_mul (evalsTo_exprOfDec ext n d) (C67_pi (ext := ext) (n := n) (by omega)))).mono (ε' := p) (by
    simp only [mul_zero, zero_mul, add_zero]
    rw [← hv, ← hp]
    nlinarith [abs_nonneg v])
  have e2 := C67_tan e1 (B := 2) (by norm_num) (by rw [← hv, habs]; push_cast; nlinarith) (by omega) (by omega)
    (by rw [← hv, hcos']; rw [show (2 : ℝ) / 10 ^ n = 2 * p by rw [hp]; ring]; linarith)
  rw [← hv, hcos', ← hp] at e2
  have e3 : (5 * p + p) / (Real.cos (v * Real.pi) - p) ^ 2 ≤ 6 * p / u ^ 2 := by
    have : u ≤ Real.cos (v * Real.pi) - p := by linarith
    rw [show 5 * p + p = 6 * p by ring]
    gcongr
  have e4 := e2.mono e3
  have l4 : EvalsTo ext n (ApproxSpec.num "0.25") ((1 / 4 : ℚ) : ℝ) 0 := C67_lit (by decide +kernel)
  have e5 := (C67_paren (C67_sub (C67_mul (evalsTo_exprOfDec ext n d) (evalsTo_exprOfDec ext n d)) l4)).mono (ε' := 1 / 2 * p) (by
    simp only [mul_zero, add_zero, zero_add, le_refl, ← hp])
  have e6 := C67_mul e4 e5
  push_cast at e6
  rw [← hv, show v * v - 1 / 4 = v ^ 2 - 1 / 4 by ring, show v * Real.pi = Real.pi * v by ring, ← hp] at e6
  refine sampleAt_of_evalsTo (s := .binary (.methodCall (.paren (.binary (exprOfDec d) .mul (.path ["PI"]))) "tan" []) .mul
    (.paren (.binary (.binary (exprOfDec d) .mul (exprOfDec d)) .sub (ApproxSpec.num "0.25")))) rfl (e6.mono ?_)
  have t1 : |Real.tan (Real.pi * v)| ≤ 1 / (2 * u) := by
    rw [Real.tan_eq_sin_div_cos, abs_div, mul_comm Real.pi, hcos']
    exact div_le_div₀ (by norm_num) (Real.abs_sin_le_one _) (by positivity) hcos
  have t2 : |v ^ 2 - 1 / 4| ≤ u := by
    have e : v ^ 2 = |v| ^ 2 := (sq_abs v).symm
    have hv1 : |v| ≤ 1 / 2 := by linarith [hu]
    have hv0 := abs_nonneg v
    have e' : |v| = 1 / 2 - u := by rw [hu]; ring
    rw [e, e', abs_le]
    constructor <;> nlinarith
  have t3 : 1 / u ≤ 10 ^ 6 := by
    rw [div_le_iff₀ (by positivity)]
    norm_num at hu1 ⊢
    linarith
  have q1 : |Real.tan (Real.pi * v)| * (1 / 2 * p) ≤ 10 ^ 6 * p := by
    have : |Real.tan (Real.pi * v)| ≤ 10 ^ 6 := t1.trans (by rw [show 1 / (2 * u) = 1 / 2 * (1 / u) by field_simp]; linarith [one_div_pos.2 (show 0 < u by linarith)])
    nlinarith
  have q2 : |v ^ 2 - 1 / 4| * (6 * p / u ^ 2) ≤ 6 * 10 ^ 6 * p := by
    calc |v ^ 2 - 1 / 4| * (6 * p / u ^ 2) ≤ u * (6 * p / u ^ 2) := mul_le_mul_of_nonneg_right t2 (by positivity)
      _ = 6 * p * (1 / u) := by field_simp
      _ ≤ _ := by nlinarith
  have q3 : 6 * p / u ^ 2 * (1 / 2 * p) ≤ 3 * 10 ^ 6 * p * (1 / 10 : ℝ) := by
    have h3 : p / u ≤ 1 / 10 := by
      rw [div_le_iff₀ (by linarith)]
      norm_num at hp1 hu1 ⊢
      linarith
    calc 6 * p / u ^ 2 * (1 / 2 * p) = 3 * p * (1 / u) * (p / u) := by field_simp; ring
      _ ≤ 3 * p * (10 ^ 6) * (1 / 10) := by gcongr
      _ = _ := by ring
  linarith

theorem tan_terms (ext : BdExt) (N n : ℕ) (hn : 7 ≤ n) (hN : (N + 1) % 2 = 0) (ε : ℚ) (h : (tanBudget N n ε).ok) :
    WithinTerms ext .tan (N + 1) n (fun x => Real.tan (Real.pi * x) * (x ^ 2 - 1 / 4)) ε := by
  have hlo : (⟨-499999, 6⟩ : Dec).val = -(499999 / 10 ^ 6) := by decide +kernel
  have hhi : (⟨499999, 6⟩ : Dec).val = 499999 / 10 ^ 6 := by decide +kernel
  have hcast : (((499999 / 10 ^ 6 : ℚ)) : ℝ) = 499999 / 10 ^ 6 := by push_cast; ring
  obtain ⟨S, hS, hS'⟩ := tanCoeff_summable (y := 499999 / 10 ^ 6 * ((54 / 10 + (54 / 10)⁻¹) / 2)) (by positivity) (by norm_num)
  obtain ⟨R, hR, hR'⟩ := tanCoeff_summable (y := 499999 / 10 ^ 6 + 9 / 10) (by positivity) (by norm_num)
  refine (tanBudget N n ε).within h ext .tan _ _ rfl (by rw [hlo]; rfl) (by rw [hhi]; rfl) hN _
    ⟨by rw [hlo, hhi], fun t => by simp [Real.tan_neg]⟩ tanCoeff (fun p => 2 * p.2 + 1) ?_ (54 / 10) (9 / 10) S R ?_
    (by norm_num) (by norm_num) ?_ ?_ ?_ ?_ ?_
  · intro t ht
    simp only [tanBudget] at ht
    rw [hcast] at ht
    exact hasSum_tan_quarter (ht.trans_lt (by norm_num))
  · unfold silver
    have : √2 ≤ (3 / 2 : ℝ) := Real.sqrt_le_iff.2 ⟨by norm_num, by norm_num⟩
    linarith
  · simp only [tanBudget]
    rw [hcast]
    exact hS
  · simp only [tanBudget]
    rw [hcast]
    exact hR
  · simp only [tanBudget]
    push_cast
    rw [div_mul_eq_mul_div]
    gcongr
    linarith
  · simp only [tanBudget]
    push_cast
    gcongr
  · intro d h3 h4
    obtain ⟨y, h5, h6⟩ := tan_sample ext n hn h.1.2.2.1 d (by
      rw [hlo] at h3
      rw [hhi] at h4
      have h3' := (Rat.cast_le (K := ℝ)).2 h3
      have h4' := (Rat.cast_le (K := ℝ)).2 h4
      push_cast at h3' h4'
      exact abs_le.2 ⟨h3', h4'⟩)
    refine ⟨y, h5, ?_⟩
    simp only [tanBudget]
    push_cast
    exact h6

/-- **C81** `tan`: the target has the poles of the tangent cancelled. -/
theorem C81_tan (ext : BdExt) (N n : ℕ) (hn : 7 ≤ n) (hN : (N + 1) % 2 = 0) (ε : ℚ) (h : (tanBudget N n ε).ok) :
    Within ext .tan (N + 1) n (fun x => Real.tan (Real.pi * x) * (x ^ 2 - 1 / 4)) ε :=
  (tan_terms ext N n hn hN ε h).within

/-- **C81** 12 and 24 terms. -/
theorem C81_tan_shipped (ext : BdExt) :
    Within ext .tan 12 20 (fun x => Real.tan (Real.pi * x) * (x ^ 2 - 1 / 4)) (2 / 10 ^ 6) ∧
    Within ext .tan 24 40 (fun x => Real.tan (Real.pi * x) * (x ^ 2 - 1 / 4)) (6 / 10 ^ 15) :=
  ⟨C81_tan ext 11 20 (by norm_num) rfl _ (by decide +kernel), C81_tan ext 23 40 (by norm_num) rfl _ (by decide +kernel)⟩

/-! ### `atan2` -/

/-- The conditions on `N`, `n` and the distance `ε` for any bound between 0.41 and 0.42. -/
def Atan2Ok (N n : ℕ) (ε : ℚ) : Prop :=
  (1 ≤ N ∧ 6 ≤ n ∧ n ≤ 94 ∧ 4 ^ N * 8 ≤ 10 ^ n ∧ 1000 * N ^ 2 ≤ 10 ^ n) ∧
  (1 : ℚ) + (1 / 10 ^ n + (N : ℚ) * (1 / 2 / 10 ^ 99 * 1 + 1 / 2 / 10 ^ n)) * ∏ j ∈ Finset.range N, (((N : ℚ) / (j + 1)) ^ 2 * (101 / 100 / (41 / 100))) ≤ 2000 ∧
  (N.factorial : ℚ) / (N + 1).factorial * ((42 / 100) ^ (N + 1) * (1 / 2 ^ (N - 1) + ((N : ℚ) + 1) * (1 / 10 ^ n) * 2 ^ (N + 1))) +
    3 * ((N : ℚ) + 1) * (nodeResidual N n (84 / 100) (42 / 100) 2000 + 1 / 10 ^ n) ≤ ε

instance (N n : ℕ) (ε : ℚ) : Decidable (Atan2Ok N n ε) := by unfold Atan2Ok; infer_instance

/-- The terms of the request of `atan2` between any bounds `-h` and `h`. -/
theorem atan2_terms (ext : BdExt) (hs : SqrtOk ext) (hf : 3 ≤ ext.fuel) (N n : ℕ) (hN : (N + 1) % 2 = 0) (ε : ℚ) (h : Atan2Ok N n ε) (lo hi : Dec)
    (hlo : lo.val = -hi.val) (hhi : 41 / 100 ≤ hi.val ∧ hi.val ≤ 42 / 100) :
    ∃ r terms, approx ext ApproxSpec.atan2.target (N + 1) lo hi [ApproxSpec.atan2.var] ApproxSpec.atan2.parity n = .ok r ∧
      mulAddPolynomial terms ["z"] .odd = .ok r ∧ terms.length = N + 1 ∧
      ∀ t ∈ Set.Icc (lo.val : ℝ) hi.val, |∑ i ∈ Finset.range (N + 1), (if Parity.odd.keeps i then (valAt terms i : ℝ) * t ^ i else 0) - Real.arctan t| ≤ ε := by
  obtain ⟨⟨a1, a2, a3, a4, a5⟩, a6, a7⟩ := h
  obtain ⟨b1, b2⟩ := hhi
  have c1 : (41 / 100 : ℝ) ≤ hi.val := by have := (Rat.cast_le (K := ℝ)).2 b1; push_cast at this; exact this
  have c2 : (hi.val : ℝ) ≤ 42 / 100 := by have := (Rat.cast_le (K := ℝ)).2 b2; push_cast at this; exact this
  have d6 := (Rat.cast_le (K := ℝ)).2 a6
  have d7 := (Rat.cast_le (K := ℝ)).2 a7
  push_cast at d6 d7
  have hdiff : hi.val - lo.val = 2 * hi.val := by rw [hlo]; ring
  have hdiff' : ((hi.val : ℝ) - lo.val) / 2 = hi.val := by rw [hlo]; push_cast; ring
  have hsam : ∀ d : Dec, ∃ y, sampleAt ext ApproxSpec.atan2.target ["z"] n d = .ok y ∧ |(y.val : ℝ) - Real.arctan d.val| ≤ 1 / 10 ^ n := fun d =>
    sampleAt_of_evalsTo (s := .methodCall (exprOfDec d) "atan" []) rfl ((C67_atan hs hf (evalsTo_exprOfDec ext n d) (by omega) (by omega)).mono (by simp))
  obtain ⟨terms, r, h1, hm, hl, h2⟩ := approx_terms ext ApproxSpec.atan2.target N n a1 a2 a3 lo hi (by rw [hlo]; linarith) (by rw [hdiff]; linarith) a4 a5 ["z"] .odd hN
    atanDeriv (atanChain _ _ _) N.factorial 1 (1 / 10 ^ n) 2000 (42 / 100) (fun t _ => atanDeriv_bound N t)
    (fun i _ t ht => by
      cases i with
      | zero =>
        simp only [atanDeriv, Nat.factorial_zero, Nat.cast_one, mul_one]
        have t1 : -1 ≤ t := by have := ht.1; rw [hlo] at this; push_cast at this; linarith
        have t2 : t ≤ 1 := by linarith [ht.2]
        have h1 := Real.arctan_mono t1
        have h2 := Real.arctan_mono t2
        rw [Real.arctan_neg] at h1
        rw [Real.arctan_one] at h1 h2
        rw [abs_le]
        constructor <;> linarith [Real.pi_lt_d2]
      | succ j =>
        refine (atanDeriv_bound j t).trans ?_
        have : (j.factorial : ℝ) ≤ (j + 1).factorial := by exact_mod_cast Nat.factorial_le (by omega)
        linarith)
    (by positivity) (fun d _ _ => hsam d)
    (by
      rw [hdiff', ddAmp]
      push_cast
      refine le_trans ?_ d6
      gcongr)
    (by rw [hlo, abs_neg, abs_of_pos (by linarith)]; exact b2) (by rw [abs_of_pos (by linarith)]; exact b2)
  have hfit : ParityFits .odd lo hi Real.arctan := ⟨hlo, fun t => Real.arctan_neg t⟩
  refine ⟨r, terms, h1, hm, hl, fun t ht => (parity_sum hfit N (fun i => (valAt terms i : ℝ)) h2 ht).trans (le_trans ?_ d7)⟩
  rw [hdiff', hdiff, termError]
  have e1 : nodeResidual N n (2 * hi.val) (42 / 100) 2000 ≤ nodeResidual N n (84 / 100) (42 / 100) 2000 := by
    unfold nodeResidual
    have : 0 ≤ hi.val := by linarith
    have : 2 * hi.val ≤ 84 / 100 := by linarith
    gcongr
  have e2 : ((nodeResidual N n (2 * hi.val) (42 / 100) 2000 : ℚ) : ℝ) ≤ nodeResidual N n (84 / 100) (42 / 100) 2000 := by exact_mod_cast e1
  gcongr

/-- **C81** `atan2` asks for the inverse tangent between bounds that are floats computed when the generator runs, `± tan (π / 8)`.
Whatever their last digits are, the polynomial is close. -/
theorem C81_atan2 (ext : BdExt) (hs : SqrtOk ext) (hf : 3 ≤ ext.fuel) (N n : ℕ) (hN : (N + 1) % 2 = 0) (ε : ℚ) (h : Atan2Ok N n ε) (lo hi : Dec)
    (hlo : lo.val = -hi.val) (hhi : 41 / 100 ≤ hi.val ∧ hi.val ≤ 42 / 100) :
    ∃ r, approx ext ApproxSpec.atan2.target (N + 1) lo hi [ApproxSpec.atan2.var] ApproxSpec.atan2.parity n = .ok r ∧
      ∀ I : Interp ℝ, PolyInterp I (fun q : ℚ => (q : ℝ)) → I.var ["z"] ∈ Set.Icc (lo.val : ℝ) hi.val →
        |r.denote I - Real.arctan (I.var ["z"])| ≤ ε := by
  obtain ⟨r, terms, h1, h2, h3, h4⟩ := atan2_terms ext hs hf N n hN ε h lo hi hlo hhi
  refine ⟨r, h1, fun I hI hx => ?_⟩
  obtain ⟨r', hr', hv⟩ := C37_chain_value hI terms ["z"] .odd (by omega) (by rw [h3]; exact hN)
  rw [h2] at hr'
  injection hr' with hr'
  subst hr'
  rw [hv, h3]
  exact h4 _ hx

/-- **C81** 16 and 36 terms. -/
theorem C81_atan2_shipped : Atan2Ok 15 20 (4 / 10 ^ 12) ∧ Atan2Ok 35 40 (5 / 10 ^ 26) := ⟨by decide +kernel, by decide +kernel⟩

example : ∃ r, approx goodExt ApproxSpec.atan2.target 16 ⟨-41421356, 8⟩ ⟨41421356, 8⟩ ["z"] .odd 20 = .ok r ∧
      ∀ I : Interp ℝ, PolyInterp I (fun q : ℚ => (q : ℝ)) → I.var ["z"] ∈ Set.Icc (((⟨-41421356, 8⟩ : Dec).val : ℚ) : ℝ) (⟨41421356, 8⟩ : Dec).val →
        |r.denote I - Real.arctan (I.var ["z"])| ≤ ((4 / 10 ^ 12 : ℚ) : ℝ) :=
  C81_atan2 goodExt goodExt_ok (by decide) 15 20 rfl _ C81_atan2_shipped.1 _ _ (by decide +kernel) (by decide +kernel)

end Verif

import Verif.Lemmas.DivDiff
import Verif.Props.Approx

/-!
# The error of `approx` over the whole interval
-/

namespace Verif
open Dec

/-- The sampling loop returns when every node and every sample can be computed. -/
theorem sampleLoop_returns (ext : BdExt) (e : Expr) (x : Name) (n : Int) (a b c : Dec) (count lo : Nat) (s : List Dec × List Dec)
    (h : ∀ i, i < count → ∃ t, Bd.cos (Dec.ofInt (lo + i : Nat) * b) n = .ok t ∧ ∃ y, sampleAt ext e x n (a - c * t) = .ok y) :
    ∃ r, loopUp (sampleLoop ext e x n a b c) count lo s = .ok r := by
  induction count generalizing lo s with
  | zero => exact ⟨s, rfl⟩
  | succ k ih =>
    obtain ⟨t, ht, y, hy⟩ := h 0 (by omega)
    rw [Nat.add_zero] at ht
    obtain ⟨r, hr⟩ := ih (lo + 1) (s.1 ++ [a - c * t], s.2 ++ [y]) (fun i hi => by
      have := h (i + 1) (by omega)
      rwa [show lo + (i + 1) = lo + 1 + i by omega] at this)
    refine ⟨r, ?_⟩
    have h1 : sampleLoop ext e x n a b c lo s = .ok (s.1 ++ [a - c * t], s.2 ++ [y]) := by
      unfold sampleLoop
      rw [ht, Res.ok_bind]
      simp only []
      rw [hy]
      rfl
    rw [loopUp, h1, Res.ok_bind]
    exact hr

/-- What the rounding of the interpolation can do at a node. -/
def nodeResidual (N n : ℕ) (D X M : ℚ) : ℚ :=
  (1 / 2 / 10 ^ n + (M + 1) / 10 ^ 99) * ((1 + D) ^ N - 1) +
    1 / 2 / 10 ^ n * (∑ j ∈ Finset.range (N + 1), X ^ j) * ∑ i ∈ Finset.range (N + 1), (1 + M * ∑ l ∈ Finset.range i, D ^ l)

/-- The error of the terms found by `approx`. -/
noncomputable def termError (N n : ℕ) (h B η : ℝ) (D X M : ℚ) : ℝ :=
  B / (N + 1).factorial * (h ^ (N + 1) * (1 / 2 ^ (N - 1) + (N + 1) * (1 / 10 ^ n) * 2 ^ (N + 1))) + 3 * (N + 1) * (nodeResidual N n D X M + η)

/-- The divided differences of `f` up to order `N` at points of the interval are bounded. -/
def DDBounded (f : ℝ → ℝ) (N : ℕ) (l u M₀ : ℝ) : Prop :=
  ∀ (x : ℕ → ℝ) (a s : ℕ), a + s ≤ N → Set.InjOn x (Finset.Icc a (a + s) : Set ℕ) → (∀ i ∈ Finset.Icc a (a + s), x i ∈ Set.Icc l u) →
    |rdd x (fun i => f (x i)) a s| ≤ M₀

theorem DerivChain.ddBounded {F : ℕ → ℝ → ℝ} {N : ℕ} {l u M₀ : ℝ} (hF : DerivChain F N l u) (hM₀ : ∀ s ≤ N, ∀ t ∈ Set.Icc l u, |F s t| ≤ M₀ * s.factorial) :
    DDBounded (F 0) N l u M₀ := by
  intro x a s has hinj hin
  have hf : (0 : ℝ) < s.factorial := by exact_mod_cast s.factorial_pos
  have := rdd_bound F s a l u (hF.mono (by omega)) x hinj hin _ (hM₀ s (by omega))
  rwa [mul_div_assoc, div_self hf.ne', mul_one] at this

/-- The terms found by `approx` and the points they are fitted at; what is sampled matters near those points only. -/
theorem approx_nodes (ext : BdExt) (e : Expr) (N n : ℕ) (hN : 1 ≤ N) (h1 : 6 ≤ n) (h2 : n ≤ 94) (xmin xmax : Dec) (hlt : xmin.val < xmax.val)
    (hw : xmax.val - xmin.val ≤ 2) (h4 : 4 ^ N * 8 ≤ 10 ^ n) (hN2 : 1000 * N ^ 2 ≤ 10 ^ n) (x : Name) (parity : Parity)
    (hpar : parity.accepts (N + 1)) (f : ℝ → ℝ) (M₀ η : ℝ) (M X : ℚ) (hM₀ : DDBounded f N xmin.val xmax.val M₀)
    (hη : 0 ≤ η) (hs : ∀ i ≤ N, ∀ d : Dec, xmin.val ≤ d.val → d.val ≤ xmax.val →
      |(d.val : ℝ) - (((xmax.val : ℝ) + xmin.val) / 2 - ((xmax.val : ℝ) - xmin.val) / 2 * Real.cos (Real.pi * i / ((N + 1 : ℕ) - 1)))| ≤
        ((xmax.val : ℝ) - xmin.val) / 2 * (1 / 10 ^ n) → ∃ y, sampleAt ext e x n d = .ok y ∧ |(y.val : ℝ) - f d.val| ≤ η)
    (hM : M₀ + (η + N * (1 / 2 / 10 ^ 99 * M₀ + 1 / 2 / 10 ^ n)) * ddAmp N (((xmax.val : ℝ) - xmin.val) / 2) ≤ M)
    (hX1 : |xmin.val| ≤ X) (hX2 : |xmax.val| ≤ X) :
    ∃ terms r, approx ext e (N + 1) xmin xmax x parity n = .ok r ∧ mulAddPolynomial terms x parity = .ok r ∧ terms.length = N + 1 ∧
      ∃ (P : Polynomial ℝ) (xs : ℕ → ℝ), P.degree < (N + 1 : ℕ) ∧ (∀ u, P.eval u = ∑ i ∈ Finset.range (N + 1), (valAt terms i : ℝ) * u ^ i) ∧
        (∀ i ≤ N, P.coeff i = valAt terms i) ∧
        NearNodes N (((xmax.val : ℝ) + xmin.val) / 2) (((xmax.val : ℝ) - xmin.val) / 2) (1 / 10 ^ n) xs ∧ (1 : ℝ) / 10 ^ n * 4 ^ N ≤ 1 / 8 ∧
        ∀ i ≤ N, |P.eval (xs i) - f (xs i)| ≤ nodeResidual N n (xmax.val - xmin.val) X M + η := by
  -- the loop
  obtain ⟨p, hp, -⟩ := C29_pi_correctly_rounded ext n (by omega)
  have hden : (Dec.ofInt ((N + 1 - 1 : Nat) : Int)).val ≠ 0 := by
    rw [val_ofInt, Nat.add_sub_cancel]
    exact_mod_cast (by omega : N ≠ 0)
  obtain ⟨b, hb, -⟩ := (Dec.div_spec p (Dec.ofInt ((N + 1 - 1 : Nat) : Int))).2 hden
  have hnode : ∀ i, i < N + 1 → ∃ t, Bd.cos (Dec.ofInt (i : Nat) * b) n = .ok t ∧
      sampleNode ext (N + 1) xmin xmax n i = .ok ((xmax + xmin) * Dec.half - (xmax - xmin) * Dec.half * t) := by
    intro i hi
    obtain ⟨d, hd, -⟩ := C39_nodes ext (N + 1) (by omega) xmin xmax hlt.le n h1 h2 i hi
    unfold sampleNode at hd ⊢
    rw [hp, Res.ok_bind, hb, Res.ok_bind] at hd ⊢
    obtain ⟨t, ht, -⟩ := Res.bind_eq_ok.1 hd
    exact ⟨t, ht, by rw [ht]; rfl⟩
  obtain ⟨s, hsl⟩ := sampleLoop_returns ext e x n ((xmax + xmin) * Dec.half) b ((xmax - xmin) * Dec.half) (N + 1) 0 ([], []) (by
    intro i hi
    rw [Nat.zero_add]
    obtain ⟨t, ht, hsn⟩ := hnode i hi
    obtain ⟨d, hd, hd1, hd2, hd3⟩ := C39_nodes ext (N + 1) (by omega) xmin xmax hlt.le n h1 h2 i hi
    rw [hsn] at hd
    injection hd with hd
    obtain ⟨y, hy, -⟩ := hs i (by omega) d hd1 hd2 hd3
    exact ⟨t, ht, y, by rw [hd]; exact hy⟩)
  obtain ⟨xs, ys, hr, hxl, hyl, hall⟩ := sampleLoop_eq ext e x n _ b _ (N + 1) 0 _ s hsl
  simp only [List.nil_append] at hr
  -- the nodes
  have hxs : ∀ i, i < N + 1 → xmin.val ≤ valAt xs i ∧ valAt xs i ≤ xmax.val ∧
      |(valAt xs i : ℝ) - (((xmax.val : ℝ) + xmin.val) / 2 - ((xmax.val : ℝ) - xmin.val) / 2 * Real.cos (Real.pi * i / ((N + 1 : ℕ) - 1)))| ≤
        ((xmax.val : ℝ) - xmin.val) / 2 * (1 / 10 ^ n) := by
    intro i hi
    obtain ⟨d, hd, hd1, hd2, hd3⟩ := C39_nodes ext (N + 1) (by omega) xmin xmax hlt.le n h1 h2 i hi
    obtain ⟨t, ht, hsn⟩ := hnode i hi
    obtain ⟨t', ht', hx, -⟩ := hall i hi
    rw [Nat.zero_add, ht] at ht'
    injection ht' with ht'
    rw [hsn] at hd
    injection hd with hd
    have : xs.getD i default = d := by rw [hx, ← ht', hd]
    unfold valAt
    rw [this]
    exact ⟨hd1, hd2, hd3⟩
  have hltR : (xmin.val : ℝ) < xmax.val := by exact_mod_cast hlt
  have H : NearNodes N (((xmax.val : ℝ) + xmin.val) / 2) (((xmax.val : ℝ) - xmin.val) / 2) (1 / 10 ^ n) (fun i => (valAt xs i : ℝ)) := by
    refine ⟨hN, by linarith, by positivity, fun i hi => ?_, fun i hi => ?_⟩
    · obtain ⟨a1, a2, -⟩ := hxs i (by omega)
      have a1 : (xmin.val : ℝ) ≤ valAt xs i := by exact_mod_cast a1
      have a2 : (valAt xs i : ℝ) ≤ xmax.val := by exact_mod_cast a2
      rw [abs_le]
      constructor <;> linarith
    · obtain ⟨-, -, a3⟩ := hxs i (by omega)
      convert a3 using 2
      rw [cnode, show Real.pi * i / (((N + 1 : ℕ) : ℝ) - 1) = i * Real.pi / N by push_cast; ring]
      ring
  have hc1 : ((xmax.val : ℝ) + xmin.val) / 2 - ((xmax.val : ℝ) - xmin.val) / 2 = xmin.val := by ring
  have hc2 : ((xmax.val : ℝ) + xmin.val) / 2 + ((xmax.val : ℝ) - xmin.val) / 2 = xmax.val := by ring
  have hε : (1 : ℝ) / 10 ^ n * 4 ^ N ≤ 1 / 8 := by
    have : (4 : ℝ) ^ N * 8 ≤ 10 ^ n := by exact_mod_cast h4
    rw [div_mul_eq_mul_div, one_mul, div_le_div_iff₀ (by positivity) (by norm_num)]
    linarith
  have hε2 : (1 : ℝ) / 10 ^ n * N ^ 2 ≤ 1 / 1000 := by
    have : 1000 * (N : ℝ) ^ 2 ≤ 10 ^ n := by exact_mod_cast hN2
    rw [div_mul_eq_mul_div, one_mul, div_le_div_iff₀ (by positivity) (by norm_num)]
    linarith
  have hgapR : ∀ i j, i < j → j < N + 1 → (valAt xs i : ℝ) < valAt xs j := by
    intro i j hij hj
    have := H.gap i j hij.le (by omega)
    have hs1 : (1 : ℝ) ≤ ((j - i : ℕ) : ℝ) := by exact_mod_cast (by omega : 1 ≤ j - i)
    have hN0 : (0 : ℝ) < N := by exact_mod_cast hN
    have h5 : (1 : ℝ) / 10 ^ n < (((j - i : ℕ) : ℝ) / N) ^ 2 := by
      rw [div_pow, lt_div_iff₀ (by positivity)]
      nlinarith [one_le_pow₀ hs1 (n := 2)]
    have := mul_pos H.pos (by linarith : 0 < 2 * (((j - i : ℕ) : ℝ) / N) ^ 2 - 2 * (1 / 10 ^ n))
    linarith
  have hg : GoodPoints xs ys := by
    refine ⟨by omega, by omega, fun i j hij hj h => ?_⟩
    have := hgapR i j hij (by omega)
    rw [h] at this
    exact lt_irrefl _ this
  obtain ⟨terms, hterms⟩ := (C35_returns_iff xs ys n).2 hg
  have hlen := C35_length xs ys n terms hterms
  obtain ⟨r, hr1, -⟩ := C37_chain_value (ratInterp_poly 0) terms x parity (by omega) (by rw [hlen, hyl]; exact hpar)
  refine ⟨terms, r, ?_, hr1, by omega, ?_⟩
  · unfold approx
    rw [if_neg (by omega)]
    simp only []
    rw [hp, Res.ok_bind, hb, Res.ok_bind, hsl, Res.ok_bind, hr, hterms, Res.ok_bind, hr1]
  -- the samples
  have hsmp : ∀ i ≤ N, |(valAt ys i : ℝ) - f (valAt xs i)| ≤ η := by
    intro i hi
    obtain ⟨a1, a2, a3⟩ := hxs i (by omega)
    obtain ⟨t', -, -, hy⟩ := hall i (by omega)
    obtain ⟨y, hy', he⟩ := hs i hi (xs.getD i default) a1 a2 a3
    rw [hy] at hy'
    injection hy' with hy'
    unfold valAt
    rw [hy']
    exact he
  -- the differences
  have hinR : ∀ i ≤ N, (valAt xs i : ℝ) ∈ Set.Icc (xmin.val : ℝ) xmax.val := by
    intro i hi
    obtain ⟨a1, a2, -⟩ := hxs i (by omega)
    exact ⟨by exact_mod_cast a1, by exact_mod_cast a2⟩
  have hrdd : ∀ a s, a + s ≤ N → |rdd (fun i => (valAt xs i : ℝ)) (fun i => f (valAt xs i)) a s| ≤ M₀ := by
    intro a s has
    refine hM₀ _ a s has ?_ ?_
    · intro i hi j hj hij
      simp only [Finset.coe_Icc, Set.mem_Icc] at hi hj
      rcases lt_trichotomy i j with h | h | h
      · exact absurd hij (hgapR i j h (by omega)).ne
      · exact h
      · exact absurd hij (hgapR j i h (by omega)).ne'
    · intro i hi
      exact hinR i (by have := Finset.mem_Icc.1 hi; omega)
  have hdd : ∀ s a, a + s < ys.length → |(cdd (fun j => xs.getD j default) (fun j => ys.getD j default) n a s).val| ≤ M := by
    intro s a has
    have key := H.dd_error (by have : ((xmax.val - xmin.val : ℚ) : ℝ) ≤ 2 := by exact_mod_cast hw
                               push_cast at this; linarith) hε2 (fun i => f (valAt xs i))
      (fun a s => ((cdd (fun j => xs.getD j default) (fun j => ys.getD j default) n a s).val : ℝ)) (1 / 2 / 10 ^ 99) (1 / 2 / 10 ^ n) η M₀
      (by positivity) (by norm_num) (by positivity) hη (fun a ha => by rw [cdd]; exact hsmp a ha) (by
        intro a s has
        have hne : (xs.getD (a + s + 1) default - xs.getD a default).val ≠ 0 := by
          rw [val_sub, sub_ne_zero]
          exact (hg.2.2 a (a + s + 1) (by omega) (by omega)).symm
        obtain ⟨q, hq, he⟩ := (Dec.div_spec (cdd (fun j => xs.getD j default) (fun j => ys.getD j default) n (a + 1) s -
          cdd (fun j => xs.getD j default) (fun j => ys.getD j default) n a s) (xs.getD (a + s + 1) default - xs.getD a default)).2 hne
        have e : quot (cdd (fun j => xs.getD j default) (fun j => ys.getD j default) n (a + 1) s -
          cdd (fun j => xs.getD j default) (fun j => ys.getD j default) n a s) (xs.getD (a + s + 1) default - xs.getD a default) = q := by
          unfold quot; rw [hq]
        have hr := round_err (x := q) (n := n) (by omega)
        have hwn : (10 : ℚ) ^ (-(n : Int)) = 1 / 10 ^ n := by rw [zpow_neg, zpow_natCast, one_div]
        rw [hwn] at hr
        have hεd : divEps = 1 / 2 / 10 ^ 99 := by norm_num [divEps]
        rw [hεd, val_sub, val_sub] at he
        rw [cdd, e]
        have h3 := abs_sub_le (round q n).val q.val (((cdd (fun j => xs.getD j default) (fun j => ys.getD j default) n (a + 1) s).val -
          (cdd (fun j => xs.getD j default) (fun j => ys.getD j default) n a s).val) / ((xs.getD (a + s + 1) default).val - (xs.getD a default).val))
        have h4 := (h3.trans (add_le_add hr he))
        have h5 := (Rat.cast_le (K := ℝ)).2 h4
        push_cast at h5
        refine h5.trans (le_of_eq ?_)
        unfold valAt
        ring) hrdd s a (by omega)
    have h6 := abs_sub_abs_le_abs_sub (((cdd (fun j => xs.getD j default) (fun j => ys.getD j default) n a s).val : ℝ))
      (rdd (fun i => (valAt xs i : ℝ)) (fun i => f (valAt xs i)) a s)
    have h7 := hrdd a s (by omega)
    have : ((|(cdd (fun j => xs.getD j default) (fun j => ys.getD j default) n a s).val| : ℚ) : ℝ) ≤ M := by push_cast; linarith
    exact_mod_cast this
  have hdist : ∀ i j, i < ys.length → j < ys.length → |valAt xs i - valAt xs j| ≤ xmax.val - xmin.val := by
    intro i j hi hj
    obtain ⟨a1, a2, -⟩ := hxs i (by omega)
    obtain ⟨b1, b2, -⟩ := hxs j (by omega)
    rw [abs_le]
    constructor <;> linarith
  obtain ⟨t', ht', hres⟩ := residual_of_bound xs ys n hg (xmax.val - xmin.val) M hdist hdd
  rw [hterms] at ht'
  injection ht' with ht'
  subst ht'
  have hM0 : 0 ≤ M := (abs_nonneg _).trans (hdd 0 0 (by omega))
  have hD0 : 0 ≤ xmax.val - xmin.val := by linarith
  have hval : ∀ m ≤ N, |∑ j ∈ Finset.range (N + 1), valAt terms j * valAt xs m ^ j - valAt ys m| ≤ nodeResidual N n (xmax.val - xmin.val) X M := by
    intro m hm
    obtain ⟨d, hd, hbd⟩ := hres m (by omega)
    obtain ⟨d', hd', hv⟩ := C36_eval_is_sum terms (by omega) (xs.getD m default)
    rw [hd] at hd'
    injection hd' with hd'
    subst hd'
    rw [hlen, hyl] at hv
    have : d.val = ∑ j ∈ Finset.range (N + 1), valAt terms j * valAt xs m ^ j := hv
    rw [this, hyl] at hbd
    refine hbd.trans ?_
    have hxm : |valAt xs m| ≤ X := by
      obtain ⟨a1, a2, -⟩ := hxs m (by omega)
      rw [abs_le] at hX1 hX2 ⊢
      constructor <;> linarith [hX1.1, hX2.2]
    unfold nodeResidual
    have h0 : 0 ≤ (1 : ℚ) / 2 / 10 ^ n + (M + 1) / 10 ^ 99 := by positivity
    apply add_le_add
    · apply mul_le_mul_of_nonneg_left _ h0
      have : (1 + (xmax.val - xmin.val)) ^ m ≤ (1 + (xmax.val - xmin.val)) ^ N := pow_le_pow_right₀ (by linarith) hm
      linarith
    · apply mul_le_mul_of_nonneg_right
      · apply mul_le_mul_of_nonneg_left _ (by positivity)
        exact Finset.sum_le_sum fun j _ => pow_le_pow_left₀ (abs_nonneg _) hxm j
      · apply Finset.sum_nonneg
        intro i _
        have : 0 ≤ ∑ l ∈ Finset.range i, (xmax.val - xmin.val) ^ l := Finset.sum_nonneg fun l _ => pow_nonneg hD0 l
        nlinarith
  -- the polynomial
  set P : Polynomial ℝ := ∑ i ∈ Finset.range (N + 1), Polynomial.C (valAt terms i : ℝ) * Polynomial.X ^ i with hP
  have hPe : ∀ u, P.eval u = ∑ i ∈ Finset.range (N + 1), (valAt terms i : ℝ) * u ^ i := by
    intro u; simp [hP, Polynomial.eval_finsetSum]
  have hPd : P.degree < (N + 1 : ℕ) := by
    rw [hP, Finset.sum_range]
    exact Polynomial.degree_sum_fin_lt _
  refine ⟨P, fun i => (valAt xs i : ℝ), hPd, hPe, ?_, H, hε, ?_⟩
  · intro i hi
    rw [hP, Polynomial.finsetSum_coeff]
    simp only [Polynomial.coeff_C_mul, Polynomial.coeff_X_pow, mul_ite, mul_one, mul_zero]
    rw [Finset.sum_ite_eq, if_pos (Finset.mem_range.2 (by omega))]
  intro i hi
  show |P.eval (valAt xs i : ℝ) - f (valAt xs i)| ≤ _
  rw [hPe]
  have a1 := (Rat.cast_le (K := ℝ)).2 (hval i hi)
  push_cast at a1
  have a2 := abs_sub_le (∑ j ∈ Finset.range (N + 1), (valAt terms j : ℝ) * (valAt xs i : ℝ) ^ j) (valAt ys i) (f (valAt xs i))
  have a3 := hsmp i hi
  linarith

/-- The terms found by `approx` and the points they are fitted at. -/
theorem approx_core (ext : BdExt) (e : Expr) (N n : ℕ) (hN : 1 ≤ N) (h1 : 6 ≤ n) (h2 : n ≤ 94) (xmin xmax : Dec) (hlt : xmin.val < xmax.val)
    (hw : xmax.val - xmin.val ≤ 2) (h4 : 4 ^ N * 8 ≤ 10 ^ n) (hN2 : 1000 * N ^ 2 ≤ 10 ^ n) (x : Name) (parity : Parity)
    (hpar : parity.accepts (N + 1)) (f : ℝ → ℝ) (M₀ η : ℝ) (M X : ℚ) (hM₀ : DDBounded f N xmin.val xmax.val M₀)
    (hη : 0 ≤ η) (hs : ∀ d : Dec, xmin.val ≤ d.val → d.val ≤ xmax.val → ∃ y, sampleAt ext e x n d = .ok y ∧ |(y.val : ℝ) - f d.val| ≤ η)
    (hM : M₀ + (η + N * (1 / 2 / 10 ^ 99 * M₀ + 1 / 2 / 10 ^ n)) * ddAmp N (((xmax.val : ℝ) - xmin.val) / 2) ≤ M)
    (hX1 : |xmin.val| ≤ X) (hX2 : |xmax.val| ≤ X) :
    ∃ terms r, approx ext e (N + 1) xmin xmax x parity n = .ok r ∧ mulAddPolynomial terms x parity = .ok r ∧ terms.length = N + 1 ∧
      ∃ (P : Polynomial ℝ) (xs : ℕ → ℝ), P.degree < (N + 1 : ℕ) ∧ (∀ u, P.eval u = ∑ i ∈ Finset.range (N + 1), (valAt terms i : ℝ) * u ^ i) ∧
        (∀ i ≤ N, P.coeff i = valAt terms i) ∧
        NearNodes N (((xmax.val : ℝ) + xmin.val) / 2) (((xmax.val : ℝ) - xmin.val) / 2) (1 / 10 ^ n) xs ∧ (1 : ℝ) / 10 ^ n * 4 ^ N ≤ 1 / 8 ∧
        ∀ i ≤ N, |P.eval (xs i) - f (xs i)| ≤ nodeResidual N n (xmax.val - xmin.val) X M + η :=
  approx_nodes ext e N n hN h1 h2 xmin xmax hlt hw h4 hN2 x parity hpar f M₀ η M X hM₀ hη (fun _ _ d a b _ => hs d a b) hM hX1 hX2

theorem approx_terms (ext : BdExt) (e : Expr) (N n : ℕ) (hN : 1 ≤ N) (h1 : 6 ≤ n) (h2 : n ≤ 94) (xmin xmax : Dec) (hlt : xmin.val < xmax.val)
    (hw : xmax.val - xmin.val ≤ 2) (h4 : 4 ^ N * 8 ≤ 10 ^ n) (hN2 : 1000 * N ^ 2 ≤ 10 ^ n) (x : Name) (parity : Parity)
    (hpar : parity.accepts (N + 1)) (F : ℕ → ℝ → ℝ) (hF : DerivChain F (N + 1) xmin.val xmax.val) (B M₀ η : ℝ) (M X : ℚ)
    (hB : ∀ t ∈ Set.Icc (xmin.val : ℝ) xmax.val, |F (N + 1) t| ≤ B) (hM₀ : ∀ s ≤ N, ∀ t ∈ Set.Icc (xmin.val : ℝ) xmax.val, |F s t| ≤ M₀ * s.factorial)
    (hη : 0 ≤ η) (hs : ∀ d : Dec, xmin.val ≤ d.val → d.val ≤ xmax.val → ∃ y, sampleAt ext e x n d = .ok y ∧ |(y.val : ℝ) - F 0 d.val| ≤ η)
    (hM : M₀ + (η + N * (1 / 2 / 10 ^ 99 * M₀ + 1 / 2 / 10 ^ n)) * ddAmp N (((xmax.val : ℝ) - xmin.val) / 2) ≤ M)
    (hX1 : |xmin.val| ≤ X) (hX2 : |xmax.val| ≤ X) :
    ∃ terms r, approx ext e (N + 1) xmin xmax x parity n = .ok r ∧ mulAddPolynomial terms x parity = .ok r ∧ terms.length = N + 1 ∧
      ∀ t ∈ Set.Icc (xmin.val : ℝ) xmax.val, |∑ i ∈ Finset.range (N + 1), (valAt terms i : ℝ) * t ^ i - F 0 t| ≤
        termError N n (((xmax.val : ℝ) - xmin.val) / 2) B η (xmax.val - xmin.val) X M := by
  obtain ⟨terms, r, hr, hm, hl, P, xs, hPd, hPe, -, H, hε, hnode⟩ := approx_core ext e N n hN h1 h2 xmin xmax hlt hw h4 hN2 x parity hpar (F 0) M₀ η M X
    ((hF.mono (Nat.le_succ N)).ddBounded hM₀) hη hs hM hX1 hX2
  refine ⟨terms, r, hr, hm, hl, fun t ht => ?_⟩
  have hc1 : ((xmax.val : ℝ) + xmin.val) / 2 - ((xmax.val : ℝ) - xmin.val) / 2 = xmin.val := by ring
  have hc2 : ((xmax.val : ℝ) + xmin.val) / 2 + ((xmax.val : ℝ) - xmin.val) / 2 = xmax.val := by ring
  have := uniform_error H hε F (by rw [hc1, hc2]; exact hF) B (by rw [hc1, hc2]; exact hB) P hPd (nodeResidual N n (xmax.val - xmin.val) X M + η) hnode t
    (by rw [hc1, hc2]; exact ht)
  rw [hPe] at this
  unfold termError
  exact this

end Verif

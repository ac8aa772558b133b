import Mathlib.Analysis.SpecialFunctions.Exponential
import Mathlib.Analysis.SpecialFunctions.Trigonometric.Series
import Mathlib.Analysis.Complex.ExponentialBounds
import Verif.Lemmas.SeriesErr

/-! # Error of the series loop against a real power series -/

namespace Verif
namespace Bd
open Dec Finset

/-- Tail of a power series dominated by its first term. -/
theorem tail_bound (a : ℕ → ℝ) (v : ℝ) (ha : HasSum a v) (N : ℕ) (w : ℕ → ℝ) (T : ℝ) (hw : HasSum w T)
    (hb : ∀ k, |a (N + k)| ≤ |a N| * w k) : |v - ∑ j ∈ range N, a j| ≤ T * |a N| := by
  have h1 : v - ∑ j ∈ range N, a j = ∑' k, a (k + N) := by
    have := ha.summable.sum_add_tsum_nat_add N
    rw [ha.tsum_eq] at this
    linarith
  rw [h1, mul_comm]
  have := tsum_of_norm_bounded (hw.mul_left |a N|) (f := fun k => a (k + N)) (fun k => by
    rw [Real.norm_eq_abs, add_comm]; exact hb k)
  simpa using this

theorem maclaurin_real {σ : Type} (x : Dec) (n : ℕ) (f : Closure σ) (c : ℕ → ℚ) (ε : ℚ) (hε : 0 ≤ ε)
    (hε2 : ε ≤ 1 / 2) (Inv : ℕ → σ → Prop) (hf : Follows f c ε Inv) (s : σ) (hs : Inv 0 s)
    (K : ℕ) (hK : K ≤ 30001) (hcK : c K ≠ 0)
    (hsmall : (1 + ε) * (|c K| * (|x.val| ^ K + (1 / 100 ^ n) / 2 * geo x.val K)) < (1 / 100 ^ n) / 2)
    (v M D T : ℝ) (hT0 : 0 ≤ T)
    (hM : ∀ N ≤ K, ((∑ j ∈ range N, |c j| * |x.val| ^ j : ℚ) : ℝ) ≤ M)
    (hD : ∀ N ≤ K, ((∑ j ∈ range (N + 1), |c j| * geo x.val j : ℚ) : ℝ) ≤ D)
    (hT : ∀ N ≤ K, c N ≠ 0 → |v - ((∑ j ∈ range N, c j * x.val ^ j : ℚ) : ℝ)| ≤ T * ((|c N| * |x.val| ^ N : ℚ) : ℝ)) :
    ∃ d, maclaurin x n f s = .ok d ∧
      |(d.val : ℝ) - v| ≤ 1 / 20 / 10 ^ n + ε * M + 1 / 100 ^ n * (D + K / 2 + T * (1 + D / 2)) := by
  obtain ⟨d, N, h1, h2, h3, h4, h5⟩ := maclaurin_main x n f c ε hε hε2 Inv hf s hs _ rfl K hK hcK hsmall
  refine ⟨d, h1, ?_⟩
  set u : ℚ := 1 / 100 ^ n with hu
  have hu0 : 0 < u := by rw [hu]; positivity
  have huR : (u : ℝ) = 1 / 100 ^ n := by rw [hu]; push_cast; rfl
  rw [← huR]
  have hu0R : (0 : ℝ) < (u : ℝ) := by exact_mod_cast hu0
  have hεR : (0 : ℝ) ≤ (ε : ℝ) := by exact_mod_cast hε
  have hε2R : (ε : ℝ) ≤ 1 / 2 := by
    have : ((ε : ℚ) : ℝ) ≤ ((1 / 2 : ℚ) : ℝ) := by exact_mod_cast hε2
    simpa using this
  -- accumulated error
  have hacc : accErr c ε u x.val N = ε * (∑ j ∈ range N, |c j| * |x.val| ^ j) +
      (1 + ε) * (u / 2) * (∑ j ∈ range N, |c j| * geo x.val j) + u / 2 * N := by
    unfold accErr
    rw [Finset.sum_add_distrib, Finset.sum_const, card_range, nsmul_eq_mul, Finset.mul_sum, Finset.mul_sum,
      ← Finset.sum_add_distrib]
    congr 1
    · exact Finset.sum_congr rfl fun j _ => by ring
    · ring
  have hterm : |c N| * geo x.val N ≤ ∑ j ∈ range (N + 1), |c j| * geo x.val j :=
    Finset.single_le_sum (f := fun j => |c j| * geo x.val j)
      (fun j _ => mul_nonneg (abs_nonneg _) (geo_nonneg _ _)) (by simp)
  have hD0 : (∑ j ∈ range N, |c j| * geo x.val j) ≤ ∑ j ∈ range (N + 1), |c j| * geo x.val j :=
    Finset.sum_le_sum_of_subset_of_nonneg (Finset.range_mono (by omega))
      (fun j _ _ => mul_nonneg (abs_nonneg _) (geo_nonneg _ _))
  have hSM := hM N h2
  have hSD := hD N h2
  have hST := hT N h2 h3
  set SM := ∑ j ∈ range N, |c j| * |x.val| ^ j
  set SD := ∑ j ∈ range (N + 1), |c j| * geo x.val j
  set SD' := ∑ j ∈ range N, |c j| * geo x.val j
  set S := ∑ j ∈ range N, c j * x.val ^ j
  rw [hacc] at h4
  have hSD'0 : 0 ≤ SD' := Finset.sum_nonneg fun j _ => mul_nonneg (abs_nonneg _) (geo_nonneg _ _)
  have h4R : |(d.val : ℝ) - S| ≤ 1 / 20 / 10 ^ n + (ε * SM + (1 + ε) * (u / 2) * SD' + u / 2 * N) := by
    have : ((|d.val - S| : ℚ) : ℝ) ≤ ((1 / 20 / 10 ^ n + (ε * SM + (1 + ε) * (u / 2) * SD' + u / 2 * N) : ℚ) : ℝ) := by
      exact_mod_cast h4
    push_cast at this
    exact this
  have h5R : ((|c N| * |x.val| ^ N : ℚ) : ℝ) ≤ u + u / 2 * D := by
    have h6 : |c N| * |x.val| ^ N ≤ u + u / 2 * SD := by
      have := mul_le_mul_of_nonneg_left hterm (by positivity : 0 ≤ u / 2)
      linarith
    have h7 : ((|c N| * |x.val| ^ N : ℚ) : ℝ) ≤ ((u + u / 2 * SD : ℚ) : ℝ) := by exact_mod_cast h6
    have h8 : ((u + u / 2 * SD : ℚ) : ℝ) = u + u / 2 * SD := by push_cast; ring
    rw [h8] at h7
    have := mul_le_mul_of_nonneg_left hSD (by positivity : (0 : ℝ) ≤ u / 2)
    linarith
  have hSD'R : (SD' : ℝ) ≤ D := by
    have : (SD' : ℝ) ≤ (SD : ℝ) := by exact_mod_cast hD0
    linarith
  have hSD'0R : (0 : ℝ) ≤ (SD' : ℝ) := by exact_mod_cast hSD'0
  have hNK : (N : ℝ) ≤ K := by exact_mod_cast h2
  have h9 := abs_sub_le (d.val : ℝ) S v
  have h10 : |(S : ℝ) - v| ≤ T * (u + u / 2 * D) := by
    rw [abs_sub_comm]
    exact hST.trans (mul_le_mul_of_nonneg_left h5R hT0)
  have h11 : (1 + (ε : ℝ)) * (u / 2) * SD' ≤ u * D := by
    have : (1 + (ε : ℝ)) * (u / 2) ≤ u := by nlinarith
    calc (1 + (ε : ℝ)) * (u / 2) * SD' ≤ u * SD' := mul_le_mul_of_nonneg_right this hSD'0R
      _ ≤ u * D := mul_le_mul_of_nonneg_left hSD'R hu0R.le
  have h12 : (ε : ℝ) * SM ≤ ε * M := mul_le_mul_of_nonneg_left hSM hεR
  have h13 : (u : ℝ) / 2 * N ≤ u / 2 * K := mul_le_mul_of_nonneg_left hNK (by positivity)
  nlinarith

/-! ## Exponential-like series -/

/-- `|c i|` is `1/i!` or `0`. -/
def ExpLike (c : ℕ → ℚ) : Prop := ∀ i, c i = 0 ∨ |c i| = 1 / (Nat.factorial i : ℚ)

/-- Coefficients dominated by those of the exponential, each non-zero one dominating the rest in the same way. -/
structure ExpDom (c : ℕ → ℚ) : Prop where
  le : ∀ i, |c i| ≤ 1 / (Nat.factorial i : ℚ)
  decay : ∀ N k, c N ≠ 0 → |c (N + k)| ≤ |c N| * (1 / (Nat.factorial k : ℚ))

theorem ExpLike.le {c : ℕ → ℚ} (h : ExpLike c) (i : ℕ) : |c i| ≤ 1 / (Nat.factorial i : ℚ) := by
  rcases h i with h | h
  · rw [h]; simp
  · exact h.le

theorem ExpLike.dom {c : ℕ → ℚ} (h : ExpLike c) : ExpDom c where
  le := h.le
  decay N k hN := by
    rw [(h N).resolve_left hN]
    refine (h.le (N + k)).trans ?_
    rw [div_mul_div_comm, one_mul]
    have h3 : Nat.factorial N * Nat.factorial k ≤ Nat.factorial (N + k) :=
      Nat.le_of_dvd (Nat.factorial_pos _) (Nat.factorial_mul_factorial_dvd_factorial_add N k)
    have h4 : ((Nat.factorial N : ℚ) * (Nat.factorial k : ℚ)) ≤ (Nat.factorial (N + k) : ℚ) := by exact_mod_cast h3
    gcongr

theorem geo_le (x : ℚ) (B : ℚ) (hB : 1 ≤ B) (hx : |x| ≤ B) (i : ℕ) : geo x (i + 1) ≤ (i + 1) * B ^ i := by
  unfold geo
  have : ∀ j ∈ range (i + 1), |x| ^ j ≤ B ^ i := by
    intro j hj
    have hj' : j ≤ i := by simp at hj; omega
    calc |x| ^ j ≤ B ^ j := by gcongr
      _ ≤ B ^ i := pow_le_pow_right₀ hB hj'
  refine (Finset.sum_le_sum this).trans ?_
  simp

theorem pow_div_factorial (B : ℕ) (k : ℕ) :
    ((B : ℝ) ^ (10 * B + k)) / (Nat.factorial (10 * B + k) : ℝ) ≤ Real.exp B / 10 ^ k := by
  induction k with
  | zero =>
    simp only [Nat.add_zero, pow_zero, div_one]
    exact Real.pow_div_factorial_le_exp (x := (B : ℝ)) (by positivity) (10 * B)
  | succ k ih =>
    have h1 : (B : ℝ) ^ (10 * B + (k + 1)) / (Nat.factorial (10 * B + (k + 1)) : ℝ) =
        (B : ℝ) ^ (10 * B + k) / (Nat.factorial (10 * B + k) : ℝ) * (B / (10 * B + k + 1)) := by
      rw [← add_assoc, pow_succ, Nat.factorial_succ]
      push_cast
      field_simp
    have h2 : (B : ℝ) / (10 * B + k + 1) ≤ 1 / 10 := by
      rw [div_le_div_iff₀ (by positivity) (by norm_num)]
      have : (0 : ℝ) ≤ k := by positivity
      linarith
    rw [h1]
    calc _ ≤ Real.exp B / 10 ^ k * (1 / 10) := by gcongr
      _ = Real.exp B / 10 ^ (k + 1) := by rw [pow_succ]; field_simp

theorem exp_le_ten_pow (B : ℕ) : Real.exp B ≤ 10 ^ B := by
  have h : Real.exp (B : ℝ) = Real.exp 1 ^ B := by rw [← Real.exp_nat_mul]; simp
  rw [h]
  have := Real.exp_one_lt_d9
  gcongr
  linarith

theorem pow_div_factorial_small (B m k : ℕ) (h : 11 * B + k ≤ m) :
    ((B : ℚ) ^ m) / (Nat.factorial m : ℚ) ≤ 1 / 10 ^ k := by
  obtain ⟨j, rfl⟩ : ∃ j, m = 10 * B + (B + k + j) := ⟨m - (11 * B + k), by omega⟩
  have h1 := pow_div_factorial B (B + k + j)
  have h2 := exp_le_ten_pow B
  have h3 : Real.exp B / 10 ^ (B + k + j) ≤ 1 / 10 ^ k := by
    rw [div_le_div_iff₀ (by positivity) (by positivity), one_mul, pow_add, pow_add]
    have : (1 : ℝ) ≤ 10 ^ j := one_le_pow₀ (by norm_num)
    have h4 : (0 : ℝ) < 10 ^ k := by positivity
    have h5 : Real.exp B * 10 ^ k ≤ 10 ^ B * 10 ^ k := by gcongr
    have h6 : (10 : ℝ) ^ B * 10 ^ k * 1 ≤ 10 ^ B * 10 ^ k * 10 ^ j := by gcongr
    linarith
  have h7 := h1.trans h3
  have : (((B : ℚ) ^ (10 * B + (B + k + j)) / (Nat.factorial (10 * B + (B + k + j)) : ℚ) : ℚ) : ℝ) ≤
      ((1 / 10 ^ k : ℚ) : ℝ) := by push_cast; exact h7
  exact_mod_cast this

/-- The stopping condition is met at every index from `2n + 11B + 3` on. -/
theorem expDom_small (c : ℕ → ℚ) (hc : ExpDom c) (x : ℚ) (B n K : ℕ) (hB : 1 ≤ B) (hx : |x| ≤ B) (ε : ℚ) (hε : 0 ≤ ε)
    (hε2 : ε ≤ 1 / 2) (hK : 2 * n + 11 * B + 3 ≤ K) :
    (1 + ε) * (|c K| * (|x| ^ K + (1 / 100 ^ n) / 2 * geo x K)) < (1 / 100 ^ n) / 2 := by
  obtain ⟨K, rfl⟩ : ∃ k, K = k + 1 := ⟨K - 1, by omega⟩
  set u : ℚ := 1 / 100 ^ n with hu
  have hu0 : 0 < u := by rw [hu]; positivity
  have hu1 : u ≤ 1 := by
    rw [hu, div_le_one (by positivity)]; exact one_le_pow₀ (by norm_num)
  have hB' : (1 : ℚ) ≤ B := by exact_mod_cast hB
  have hfac : (0 : ℚ) < (Nat.factorial (K + 1) : ℚ) := by positivity
  have e100 : (1 : ℚ) / 10 ^ (2 * n + 2) = u / 100 := by
    rw [hu, pow_add, pow_mul]; norm_num; ring
  have h1 : (B : ℚ) ^ (K + 1) / (Nat.factorial (K + 1) : ℚ) ≤ u / 100 := by
    rw [← e100]; exact pow_div_factorial_small B (K + 1) (2 * n + 2) (by omega)
  have h2 : (B : ℚ) ^ K / (Nat.factorial K : ℚ) ≤ u / 100 := by
    rw [← e100]; exact pow_div_factorial_small B K (2 * n + 2) (by omega)
  have h3 : |c (K + 1)| * |x| ^ (K + 1) ≤ u / 100 := by
    refine le_trans ?_ h1
    calc |c (K + 1)| * |x| ^ (K + 1) ≤ (1 / (Nat.factorial (K + 1) : ℚ)) * (B : ℚ) ^ (K + 1) := by
          gcongr; exact hc.le _
      _ = _ := by ring
  have h4 : |c (K + 1)| * geo x (K + 1) ≤ u / 100 := by
    refine le_trans ?_ h2
    calc |c (K + 1)| * geo x (K + 1) ≤ (1 / (Nat.factorial (K + 1) : ℚ)) * ((K + 1) * (B : ℚ) ^ K) := by
          have := geo_nonneg x (K + 1)
          gcongr
          · exact hc.le _
          · exact geo_le x B hB' hx K
      _ = _ := by rw [Nat.factorial_succ]; push_cast; field_simp
  have h5 : |c (K + 1)| * (|x| ^ (K + 1) + u / 2 * geo x (K + 1)) ≤ u / 100 + u / 2 * (u / 100) := by
    have := mul_le_mul_of_nonneg_left h4 (by positivity : 0 ≤ u / 2)
    nlinarith
  have h6 : u / 100 + u / 2 * (u / 100) ≤ u / 50 := by nlinarith
  have h7 : (1 + ε) * (|c (K + 1)| * (|x| ^ (K + 1) + u / 2 * geo x (K + 1))) ≤ (3 / 2) * (u / 50) := by
    apply mul_le_mul (by linarith) (h5.trans h6) _ (by norm_num)
    have := geo_nonneg x (K + 1)
    positivity
  linarith

theorem expDom_M (c : ℕ → ℚ) (hc : ExpDom c) (x : ℚ) (B : ℕ) (hx : |x| ≤ B) (N : ℕ) :
    ((∑ j ∈ range N, |c j| * |x| ^ j : ℚ) : ℝ) ≤ Real.exp B := by
  refine le_trans ?_ (Real.sum_le_exp_of_nonneg (x := (B : ℝ)) (by positivity) N)
  have : ∑ j ∈ range N, |c j| * |x| ^ j ≤ ∑ j ∈ range N, (B : ℚ) ^ j / (Nat.factorial j : ℚ) := by
    refine Finset.sum_le_sum fun j _ => ?_
    calc |c j| * |x| ^ j ≤ (1 / (Nat.factorial j : ℚ)) * (B : ℚ) ^ j := by gcongr; exact hc.le j
      _ = _ := by ring
  have h2 : ((∑ j ∈ range N, |c j| * |x| ^ j : ℚ) : ℝ) ≤ ((∑ j ∈ range N, (B : ℚ) ^ j / (Nat.factorial j : ℚ) : ℚ) : ℝ) := by
    exact_mod_cast this
  refine h2.trans (le_of_eq ?_)
  push_cast; rfl

theorem expDom_D (c : ℕ → ℚ) (hc : ExpDom c) (x : ℚ) (B : ℕ) (hB : 1 ≤ B) (hx : |x| ≤ B) (N : ℕ) :
    ((∑ j ∈ range (N + 1), |c j| * geo x j : ℚ) : ℝ) ≤ Real.exp B := by
  refine le_trans ?_ (Real.sum_le_exp_of_nonneg (x := (B : ℝ)) (by positivity) N)
  have : ∑ j ∈ range (N + 1), |c j| * geo x j ≤ ∑ j ∈ range N, (B : ℚ) ^ j / (Nat.factorial j : ℚ) := by
    rw [Finset.sum_range_succ']
    have h0 : geo x 0 = 0 := by simp [geo]
    rw [h0, mul_zero, add_zero]
    refine Finset.sum_le_sum fun j _ => ?_
    calc |c (j + 1)| * geo x (j + 1) ≤ (1 / (Nat.factorial (j + 1) : ℚ)) * ((j + 1) * (B : ℚ) ^ j) := by
          have := geo_nonneg x (j + 1)
          gcongr
          · exact hc.le _
          · exact geo_le x B (by exact_mod_cast hB) hx j
      _ = _ := by rw [Nat.factorial_succ]; push_cast; field_simp
  have h2 : ((∑ j ∈ range (N + 1), |c j| * geo x j : ℚ) : ℝ) ≤ ((∑ j ∈ range N, (B : ℚ) ^ j / (Nat.factorial j : ℚ) : ℚ) : ℝ) := by
    exact_mod_cast this
  refine h2.trans (le_of_eq ?_)
  push_cast; rfl

theorem expDom_T (c : ℕ → ℚ) (hc : ExpDom c) (x : ℚ) (B : ℕ) (hx : |x| ≤ B) (v : ℝ)
    (hv : HasSum (fun j => (c j : ℝ) * (x : ℝ) ^ j) v) (N : ℕ) (hN : c N ≠ 0) :
    |v - ((∑ j ∈ range N, c j * x ^ j : ℚ) : ℝ)| ≤ Real.exp B * ((|c N| * |x| ^ N : ℚ) : ℝ) := by
  have hw : HasSum (fun k : ℕ => (B : ℝ) ^ k / (Nat.factorial k : ℝ)) (Real.exp B) := by
    rw [Real.exp_eq_exp_ℝ]; exact NormedSpace.expSeries_div_hasSum_exp (B : ℝ)
  have hxR : |(x : ℝ)| ≤ B := by
    have : ((|x| : ℚ) : ℝ) ≤ ((B : ℚ) : ℝ) := by exact_mod_cast hx
    simpa using this
  have h := tail_bound _ v hv N _ _ hw (fun k => ?_)
  · have e1 : ((∑ j ∈ range N, c j * x ^ j : ℚ) : ℝ) = ∑ j ∈ range N, (c j : ℝ) * (x : ℝ) ^ j := by push_cast; rfl
    have e2 : ((|c N| * |x| ^ N : ℚ) : ℝ) = |(c N : ℝ) * (x : ℝ) ^ N| := by push_cast; rw [abs_mul, abs_pow]
    rw [e1, e2]; exact h
  · rw [abs_mul, abs_mul, abs_pow, abs_pow, pow_add]
    have hck : |(c (N + k) : ℝ)| ≤ |(c N : ℝ)| * (1 / (Nat.factorial k : ℝ)) := by
      have := hc.decay N k hN
      have h2 : ((|c (N + k)| : ℚ) : ℝ) ≤ ((|c N| * (1 / (Nat.factorial k : ℚ)) : ℚ) : ℝ) := by exact_mod_cast this
      push_cast at h2
      exact h2
    calc |(c (N + k) : ℝ)| * (|(x : ℝ)| ^ N * |(x : ℝ)| ^ k)
        ≤ (|(c N : ℝ)| * (1 / (Nat.factorial k : ℝ))) * (|(x : ℝ)| ^ N * (B : ℝ) ^ k) := by gcongr
      _ = |(c N : ℝ)| * |(x : ℝ)| ^ N * ((B : ℝ) ^ k / (Nat.factorial k : ℝ)) := by ring

/-- Error of an exponential-like series, for arguments up to `B`. -/
theorem expDom_error {σ : Type} (x : Dec) (n : ℕ) (f : Closure σ) (c : ℕ → ℚ) (hc : ExpDom c) (ε : ℚ) (hε : 0 ≤ ε)
    (hε2 : ε ≤ 1 / 2) (Inv : ℕ → σ → Prop) (hf : Follows f c ε Inv) (s : σ) (hs : Inv 0 s)
    (B : ℕ) (hB : 1 ≤ B) (hx : |x.val| ≤ B)
    (K : ℕ) (hK1 : 2 * n + 11 * B + 3 ≤ K) (hK : K ≤ 30001) (hcK : c K ≠ 0)
    (v : ℝ) (hv : HasSum (fun j => (c j : ℝ) * (x.val : ℝ) ^ j) v) :
    ∃ d, maclaurin x n f s = .ok d ∧ |(d.val : ℝ) - v| ≤ 1 / 20 / 10 ^ n + ε * Real.exp B +
      1 / 100 ^ n * (Real.exp B + K / 2 + Real.exp B * (1 + Real.exp B / 2)) :=
  maclaurin_real x n f c ε hε hε2 Inv hf s hs K hK hcK (expDom_small c hc x.val B n K hB hx ε hε hε2 hK1) v
    (Real.exp B) (Real.exp B) (Real.exp B) (Real.exp_pos _).le
    (fun N _ => expDom_M c hc x.val B hx N) (fun N _ => expDom_D c hc x.val B hB hx N)
    (fun N _ hN => expDom_T c hc x.val B hx v hv N hN)

theorem expLike_error {σ : Type} (x : Dec) (n : ℕ) (f : Closure σ) (c : ℕ → ℚ) (hc : ExpLike c) (ε : ℚ) (hε : 0 ≤ ε)
    (hε2 : ε ≤ 1 / 2) (Inv : ℕ → σ → Prop) (hf : Follows f c ε Inv) (s : σ) (hs : Inv 0 s)
    (B : ℕ) (hB : 1 ≤ B) (hx : |x.val| ≤ B)
    (K : ℕ) (hK1 : 2 * n + 11 * B + 3 ≤ K) (hK : K ≤ 30001) (hcK : c K ≠ 0)
    (v : ℝ) (hv : HasSum (fun j => (c j : ℝ) * (x.val : ℝ) ^ j) v) :
    ∃ d, maclaurin x n f s = .ok d ∧ |(d.val : ℝ) - v| ≤ 1 / 20 / 10 ^ n + ε * Real.exp B +
      1 / 100 ^ n * (Real.exp B + K / 2 + Real.exp B * (1 + Real.exp B / 2)) :=
  expDom_error x n f c hc.dom ε hε hε2 Inv hf s hs B hB hx K hK1 hK hcK v hv

end Bd
end Verif

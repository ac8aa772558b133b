import Mathlib.Analysis.SpecialFunctions.Trigonometric.Cotangent
import Mathlib.Analysis.Real.Pi.Bounds
import Mathlib.Analysis.PSeries
import Mathlib.Topology.Algebra.InfiniteSum.Real

/-!
# The tangent as a sum over its poles
-/

namespace Verif
open Real

theorem tan_eq_cot_sub (x : ℂ) (hs : Complex.sin x ≠ 0) (hc : Complex.cos x ≠ 0) : Complex.tan x = Complex.cot x - 2 * Complex.cot (2 * x) := by
  rw [Complex.tan_eq_sin_div_cos, Complex.cot_eq_cos_div_sin, Complex.cot_eq_cos_div_sin, Complex.sin_two_mul, Complex.cos_two_mul']
  field_simp
  ring

/-- The partial fractions of the tangent. -/
theorem hasSum_tan {x : ℝ} (hx : |x| < 1 / 2) : HasSum (fun k : ℕ => 2 / π * (x / ((k + 1 / 2) ^ 2 - x ^ 2))) (Real.tan (π * x)) := by
  by_cases h0 : x = 0
  · subst h0
    simp [hasSum_zero]
  have hab := abs_lt.1 hx
  have hnot : ∀ y : ℝ, y ≠ 0 → |y| < 1 → (y : ℂ) ∈ Complex.integerComplement := by
    intro y hy1 hy2
    rw [Complex.mem_integerComplement_iff]
    rintro ⟨n, hn⟩
    have hn' : (n : ℝ) = y := by exact_mod_cast hn
    rw [← hn'] at hy1 hy2
    have h1 : |n| < 1 := by exact_mod_cast hy2
    rw [Int.abs_lt_one_iff] at h1
    rw [h1] at hy1
    simp at hy1
  have c1 := hnot x h0 (by linarith)
  have c2 := hnot (2 * x) (by simpa using h0) (by rw [abs_mul, abs_two]; linarith)
  have s1 := (summable_cotTerm c1).hasSum
  have s2 := (summable_cotTerm c2).hasSum
  rw [← cot_series_rep' c1] at s1
  rw [← cot_series_rep' c2] at s2
  have hne : ∀ k : ℕ, (x : ℂ) - (k + 1) ≠ 0 ∧ (x : ℂ) + (k + 1) ≠ 0 := by
    intro k
    constructor
    · have : x - (k + 1) ≠ 0 := by have := k.cast_nonneg (α := ℝ); linarith
      exact_mod_cast this
    · have : x + (k + 1) ≠ 0 := by have := k.cast_nonneg (α := ℝ); linarith
      exact_mod_cast this
  have odd : HasSum (fun m : ℕ => cotTerm ((2 * x : ℝ) : ℂ) (2 * m + 1)) (1 / 2 * (π * Complex.cot (π * x) - 1 / x)) := by
    have e : (fun m : ℕ => cotTerm ((2 * x : ℝ) : ℂ) (2 * m + 1)) = fun m : ℕ => 1 / 2 * cotTerm (x : ℂ) m := by
      funext m
      obtain ⟨h1, h2⟩ := hne m
      simp only [cotTerm]
      push_cast
      have e1 : 2 * (x : ℂ) - (2 * m + 1 + 1) = 2 * (x - (m + 1)) := by ring
      have e2 : 2 * (x : ℂ) + (2 * m + 1 + 1) = 2 * (x + (m + 1)) := by ring
      rw [e1, e2]
      field_simp
    rw [e]
    exact s1.mul_left (1 / 2)
  have even : HasSum (fun m : ℕ => cotTerm ((2 * x : ℝ) : ℂ) (2 * m)) (∑' m : ℕ, cotTerm ((2 * x : ℝ) : ℂ) (2 * m)) :=
    ((summable_cotTerm c2).comp_injective (i := fun m : ℕ => 2 * m) (fun a b h => by simpa using h)).hasSum
  have e3 := (even.even_add_odd odd).unique s2
  have hsin : Complex.sin (π * x) ≠ 0 := by
    have : Real.sin (π * x) ≠ 0 := by
      rw [Real.sin_ne_zero_iff]
      intro n hn
      have : (n : ℝ) = x := by
        have := Real.pi_pos.ne'
        rw [mul_comm] at hn
        exact mul_left_cancel₀ this hn
      exact c1 ⟨n, by exact_mod_cast this⟩
    exact_mod_cast this
  have hcos : Complex.cos (π * x) ≠ 0 := by
    have : 0 < Real.cos (π * x) := Real.cos_pos_of_mem_Ioo ⟨by nlinarith [Real.pi_pos, hab.1], by nlinarith [Real.pi_pos, hab.2]⟩
    exact_mod_cast this.ne'
  have e4 : ∑' m : ℕ, cotTerm ((2 * x : ℝ) : ℂ) (2 * m) = -(π / 2) * Complex.tan (π * x) := by
    rw [tan_eq_cot_sub _ hsin hcos]
    have : (x : ℂ) ≠ 0 := by exact_mod_cast h0
    push_cast at e3 ⊢
    rw [show (π : ℂ) * (2 * x) = 2 * (π * x) by ring] at e3
    rw [eq_sub_of_add_eq e3]
    field_simp
    ring
  rw [e4] at even
  have h := even.mul_left (-(2 / π) : ℂ)
  have hpi : (π : ℂ) ≠ 0 := by exact_mod_cast Real.pi_pos.ne'
  rw [show (-(2 / π) : ℂ) * (-(π / 2) * Complex.tan (π * x)) = ((Real.tan (π * x) : ℝ) : ℂ) by push_cast; field_simp] at h
  rw [← Complex.hasSum_ofReal]
  refine h.congr_fun ?_
  intro k
  have hk : (0 : ℝ) ≤ k := k.cast_nonneg
  have a1 : (2 * x : ℂ) - (2 * k + 1) ≠ 0 := by
    have : 2 * x - (2 * k + 1) ≠ 0 := by linarith
    exact_mod_cast this
  have a2 : (2 * x : ℂ) + (2 * k + 1) ≠ 0 := by
    have : 2 * x + (2 * k + 1) ≠ 0 := by linarith
    exact_mod_cast this
  have a3 : ((k + 1 / 2) ^ 2 - x ^ 2 : ℂ) = -((2 * x - (2 * k + 1)) * (2 * x + (2 * k + 1)) / 4) := by ring
  simp only [cotTerm]
  push_cast
  rw [a3, div_add_div _ _ a1 a2]
  field_simp
  ring

/-- One pole of `tan (π x) (x² - 1/4)`, expanded at zero; `s` is the sign of the first coefficient. -/
noncomputable def poleCoeff (s q : ℝ) : ℕ → ℝ
  | 0 => s / (4 * q)
  | m + 1 => (q - 1 / 4) / q ^ (m + 2)

theorem hasSum_pole (s : ℝ) {q y : ℝ} (hq : 0 < q) (h : q = 1 / 4 ∨ y ^ 2 < q) :
    HasSum (fun m => poleCoeff s q m * y ^ (2 * m + 1)) (s * y / (4 * q) + (q - 1 / 4) * y ^ 3 / (q * (q - y ^ 2))) := by
  rw [← hasSum_nat_add_iff' 1]
  simp only [Finset.sum_range_one, poleCoeff, mul_zero, zero_add, pow_one]
  rw [show s * y / (4 * q) + (q - 1 / 4) * y ^ 3 / (q * (q - y ^ 2)) - s / (4 * q) * y = (q - 1 / 4) * y ^ 3 / (q * (q - y ^ 2)) by ring]
  rcases h with h | h
  · subst h
    simp [hasSum_zero]
  · have h1 : |y ^ 2 / q| < 1 := by
      rw [abs_of_nonneg (by positivity), div_lt_one hq]
      exact h
    have h2 := (hasSum_geometric_of_abs_lt_one h1).mul_left ((q - 1 / 4) * y ^ 3 / q ^ 2)
    have h3 : q - y ^ 2 ≠ 0 := by linarith
    rw [show (q - 1 / 4) * y ^ 3 / q ^ 2 * (1 - y ^ 2 / q)⁻¹ = (q - 1 / 4) * y ^ 3 / (q * (q - y ^ 2)) by
      rw [one_sub_div hq.ne', inv_div]
      field_simp] at h2
    refine h2.congr_fun fun m => ?_
    rw [div_pow, ← pow_mul]
    field_simp
    ring

theorem poleCoeff_abs {q : ℝ} (hq : 1 / 4 ≤ q) (m : ℕ) : |poleCoeff (-1) q m| = poleCoeff 1 q m := by
  cases m with
  | zero =>
    simp only [poleCoeff]
    rw [abs_div, abs_neg, abs_one, abs_of_nonneg (by linarith)]
  | succ m =>
    simp only [poleCoeff]
    exact abs_of_nonneg (div_nonneg (by linarith) (pow_nonneg (by linarith) _))

theorem poleCoeff_nonneg {q : ℝ} (hq : 1 / 4 ≤ q) (m : ℕ) : 0 ≤ poleCoeff 1 q m := by rw [← poleCoeff_abs hq]; exact abs_nonneg _

/-- The power series of `tan (π x) (x² - 1/4)`, pole by pole. -/
noncomputable def tanCoeff (p : ℕ × ℕ) : ℝ := 2 / π * poleCoeff (-1) ((p.1 + 1 / 2) ^ 2) p.2

theorem sq_quarter (k : ℕ) : (1 / 4 : ℝ) ≤ (k + 1 / 2) ^ 2 := by
  have : (0 : ℝ) ≤ k := k.cast_nonneg
  nlinarith

theorem pole_apart (k : ℕ) {y : ℝ} (hy : |y| ≤ 7 / 5) : ((k : ℝ) + 1 / 2) ^ 2 = 1 / 4 ∨ y ^ 2 < ((k : ℝ) + 1 / 2) ^ 2 := by
  have h := sq_le_sq.2 (show |y| ≤ |(7 / 5 : ℝ)| by rw [abs_of_pos (by norm_num : (0 : ℝ) < 7 / 5)]; exact hy)
  rcases Nat.eq_zero_or_pos k with hk | hk
  · left; subst hk; norm_num
  · right
    have : (1 : ℝ) ≤ k := by exact_mod_cast hk
    nlinarith

/-- What one pole adds to the sum of the absolute values. -/
theorem pole_size (k : ℕ) {y : ℝ} (h0 : 0 ≤ y) (hy : y ≤ 7 / 5) :
    1 * y / (4 * ((k : ℝ) + 1 / 2) ^ 2) + (((k : ℝ) + 1 / 2) ^ 2 - 1 / 4) * y ^ 3 / (((k : ℝ) + 1 / 2) ^ 2 * (((k : ℝ) + 1 / 2) ^ 2 - y ^ 2)) ≤
      if k = 0 then (7 / 5 : ℝ) else 20 * (1 / (k * (k + 1))) := by
  have hy2 : y ^ 2 ≤ 49 / 25 := by nlinarith
  have hy3 : y ^ 3 ≤ 343 / 125 := by nlinarith [mul_nonneg h0 h0]
  split_ifs with hk
  · subst hk
    norm_num
    linarith
  · have h1 : (1 : ℝ) ≤ k := by exact_mod_cast Nat.pos_of_ne_zero hk
    set a : ℝ := (k + 1 / 2) ^ 2 with ha
    have hb : a = k * (k + 1) + 1 / 4 := by rw [ha]; ring
    set b : ℝ := k * (k + 1) with hb'
    have hb2 : 2 ≤ b := by rw [hb']; nlinarith
    have h2 : 29 / 200 * b ≤ a - y ^ 2 := by rw [hb]; linarith
    have h3 : 1 * y / (4 * a) ≤ 7 / 20 * (1 / b) := by
      rw [mul_one_div, div_le_div_iff₀ (by linarith) (by linarith)]
      rw [hb]; nlinarith
    have h4 : (a - 1 / 4) * y ^ 3 / (a * (a - y ^ 2)) ≤ 343 / 125 * (200 / 29) * (1 / b) := by
      have h5 : 0 < a - y ^ 2 := by linarith
      calc (a - 1 / 4) * y ^ 3 / (a * (a - y ^ 2)) ≤ a * (343 / 125) / (a * (29 / 200 * b)) := by
            have : 0 ≤ y ^ 3 := by positivity
            gcongr <;> linarith
        _ = _ := by
          have : a ≠ 0 := by linarith
          have : b ≠ 0 := by linarith
          field_simp
    have h6 : 0 ≤ 1 / b := by positivity
    linarith

theorem hasSum_telescope : HasSum (fun k : ℕ => (1 : ℝ) / (((k + 1 : ℕ) : ℝ) * (((k + 1 : ℕ) : ℝ) + 1))) 1 := by
  rw [hasSum_iff_tendsto_nat_of_nonneg (fun k => by positivity)]
  have e : ∀ n : ℕ, ∑ k ∈ Finset.range n, (1 : ℝ) / (((k + 1 : ℕ) : ℝ) * (((k + 1 : ℕ) : ℝ) + 1)) = 1 - 1 / (n + 1) := by
    intro n
    induction n with
    | zero => simp
    | succ n ih =>
      rw [Finset.sum_range_succ, ih]
      push_cast
      have : (n : ℝ) + 1 ≠ 0 := by positivity
      have : (n : ℝ) + 1 + 1 ≠ 0 := by positivity
      field_simp
      ring
  simp only [e]
  simpa using tendsto_const_nhds.sub (tendsto_one_div_add_atTop_nhds_zero_nat (𝕜 := ℝ))

theorem hasSum_pole_bound : HasSum (fun k : ℕ => if k = 0 then (7 / 5 : ℝ) else 20 * (1 / (k * (k + 1)))) (107 / 5) := by
  rw [← hasSum_nat_add_iff' 1]
  simp only [Finset.sum_range_one, if_true, Nat.add_eq_zero_iff, one_ne_zero, and_false, if_false]
  have := hasSum_telescope.mul_left 20
  norm_num at this ⊢
  exact this

/-- The absolute values. -/
theorem tanCoeff_summable {y : ℝ} (h0 : 0 ≤ y) (hy : y ≤ 7 / 5) :
    ∃ S, HasSum (fun p : ℕ × ℕ => |tanCoeff p| * y ^ (2 * p.2 + 1)) S ∧ S ≤ 14 := by
  have hpi : 0 < 2 / π := by positivity
  have habs : ∀ p : ℕ × ℕ, |tanCoeff p| * y ^ (2 * p.2 + 1) = 2 / π * (poleCoeff 1 ((p.1 + 1 / 2) ^ 2) p.2 * y ^ (2 * p.2 + 1)) := by
    intro p
    rw [tanCoeff, abs_mul, abs_of_pos hpi, poleCoeff_abs (sq_quarter p.1)]
    ring
  have hf : ∀ k : ℕ, HasSum (fun m => poleCoeff 1 (((k : ℝ) + 1 / 2) ^ 2) m * y ^ (2 * m + 1)) _ := fun k =>
    hasSum_pole 1 (by positivity) (pole_apart k (by rw [abs_of_nonneg h0]; exact hy))
  have hs : Summable fun p : ℕ × ℕ => poleCoeff 1 (((p.1 : ℝ) + 1 / 2) ^ 2) p.2 * y ^ (2 * p.2 + 1) := by
    rw [summable_prod_of_nonneg (fun p => mul_nonneg (poleCoeff_nonneg (sq_quarter p.1) _) (by positivity))]
    refine ⟨fun k => (hf k).summable, ?_⟩
    refine Summable.of_nonneg_of_le (fun k => tsum_nonneg fun m => mul_nonneg (poleCoeff_nonneg (sq_quarter k) _) (by positivity)) (fun k => ?_) hasSum_pole_bound.summable
    rw [(hf k).tsum_eq]
    exact pole_size k h0 hy
  refine ⟨2 / π * ∑' p : ℕ × ℕ, poleCoeff 1 (((p.1 : ℝ) + 1 / 2) ^ 2) p.2 * y ^ (2 * p.2 + 1), ?_, ?_⟩
  · simp only [habs]
    exact hs.hasSum.mul_left _
  · have h1 : ∑' p : ℕ × ℕ, poleCoeff 1 (((p.1 : ℝ) + 1 / 2) ^ 2) p.2 * y ^ (2 * p.2 + 1) ≤ 107 / 5 := by
      rw [hs.tsum_prod' (fun k => (hf k).summable), ← hasSum_pole_bound.tsum_eq]
      refine Summable.tsum_le_tsum (fun k => ?_) hs.prod hasSum_pole_bound.summable
      rw [(hf k).tsum_eq]
      exact pole_size k h0 hy
    have h2 : 2 / π ≤ 2 / 3.1415 := by gcongr; exact Real.pi_gt_d4.le
    have h3 : 0 ≤ ∑' p : ℕ × ℕ, poleCoeff 1 (((p.1 : ℝ) + 1 / 2) ^ 2) p.2 * y ^ (2 * p.2 + 1) :=
      tsum_nonneg fun p => mul_nonneg (poleCoeff_nonneg (sq_quarter p.1) _) (by positivity)
    calc _ ≤ (2 / 3.1415 : ℝ) * (107 / 5) := mul_le_mul h2 h1 h3 (by norm_num)
      _ ≤ 14 := by norm_num

/-- The series of `tan (π x) (x² - 1/4)`. -/
theorem hasSum_tan_quarter {x : ℝ} (hx : |x| < 1 / 2) : HasSum (fun p : ℕ × ℕ => tanCoeff p * x ^ (2 * p.2 + 1)) (Real.tan (π * x) * (x ^ 2 - 1 / 4)) := by
  obtain ⟨S, hS, -⟩ := tanCoeff_summable (abs_nonneg x) (by linarith)
  have hs : Summable fun p : ℕ × ℕ => tanCoeff p * x ^ (2 * p.2 + 1) := by
    refine Summable.of_norm ?_
    simpa only [norm_mul, norm_pow, Real.norm_eq_abs] using hS.summable
  have hfib : ∀ k : ℕ, HasSum (fun m => tanCoeff (k, m) * x ^ (2 * m + 1)) (2 / π * (x / ((k + 1 / 2) ^ 2 - x ^ 2)) * (x ^ 2 - 1 / 4)) := by
    intro k
    have h1 := (hasSum_pole (-1) (q := ((k : ℝ) + 1 / 2) ^ 2) (by positivity) (pole_apart k (by linarith : |x| ≤ 7 / 5))).mul_left (2 / π)
    have hq := sq_quarter k
    have h2 : ((k : ℝ) + 1 / 2) ^ 2 - x ^ 2 ≠ 0 := by
      have : x ^ 2 < 1 / 4 := by nlinarith [abs_lt.1 hx]
      linarith
    have h3 : ((k : ℝ) + 1 / 2) ^ 2 ≠ 0 := by linarith
    set q : ℝ := ((k : ℝ) + 1 / 2) ^ 2
    rw [show 2 / π * (-1 * x / (4 * q) + (q - 1 / 4) * x ^ 3 / (q * (q - x ^ 2))) = 2 / π * (x / (q - x ^ 2)) * (x ^ 2 - 1 / 4) by field_simp; ring] at h1
    refine h1.congr_fun fun m => ?_
    rw [tanCoeff]
    ring
  have h := (hs.hasSum.prod_fiberwise hfib).unique ((hasSum_tan hx).mul_right (x ^ 2 - 1 / 4))
  rw [← h]
  exact hs.hasSum

end Verif

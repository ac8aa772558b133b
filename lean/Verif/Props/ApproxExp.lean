import Verif.Props.ApproxSharp
import Verif.Lemmas.LogBounds

/-!
# The interpolants of `exp2` and `exp_m1`

A certificate for the two requests, from which the coefficients follow to as many digits as the program works with.
-/

namespace Verif
open Polynomial

def ln2Lo : ℚ := 6931471805599453094172321214581765680755 / 10 ^ 40

theorem ln2Lo_near : |Real.log 2 - ln2Lo| ≤ 1 / 10 ^ 40 := by
  have := log_of_series (x := 1 / 3) (by norm_num) (by norm_num) 60 (lo := ln2Lo) (hi := ln2Lo + 1 / 10 ^ 40) (by decide +kernel) (by decide +kernel)
  rw [show (((1 + 1 / 3) / (1 - 1 / 3) : ℚ) : ℝ) = 2 by norm_num] at this
  push_cast at this
  rw [abs_le]; constructor <;> linarith [this.1, this.2]

/-- The terms of the series of `2 ^ (y / 2)`. -/
def exp2Term (i : ℕ) : ℚ := (ln2Lo / 2) ^ i / i.factorial

theorem exp2_cut {y : ℝ} (hy : |y| ≤ 1) : |(2 : ℝ) ^ (y / 2) - (zPoly (floorList 160 exp2Term 36 0)).eval (2 * y) / 2 ^ 160| ≤ ((1 / 10 ^ 37 : ℚ) : ℝ) := by
  have h0 := ln2Lo_near
  have h1 : (ln2Lo : ℝ) ≤ 7 / 10 := by rw [show (7 / 10 : ℝ) = ((7 / 10 : ℚ) : ℝ) by norm_num]; exact Rat.cast_le.2 (by decide +kernel)
  have h1' : (0 : ℝ) ≤ ln2Lo := by exact_mod_cast (by decide +kernel : 0 ≤ ln2Lo)
  have h2 := zPoly_floorList_zero 160 exp2Term 36 hy
  obtain ⟨x, hx⟩ : ∃ x : ℝ, x = ln2Lo / 2 * y := ⟨_, rfl⟩
  have hx1 : |x| ≤ 7 / 20 := by
    rw [hx, abs_mul, abs_of_nonneg (by positivity)]
    nlinarith [abs_nonneg y]
  have hsum : ∑ i ∈ Finset.range 36, (exp2Term i : ℝ) * y ^ i = ∑ i ∈ Finset.range 36, x ^ i / i.factorial := by
    refine Finset.sum_congr rfl fun i _ => ?_
    rw [exp2Term, hx, mul_pow]
    push_cast
    ring
  rw [hsum] at h2
  have h3 := Real.exp_bound (x := x) (by linarith) (n := 36) (by norm_num)
  have h4 : |Real.exp x - ∑ i ∈ Finset.range 36, x ^ i / i.factorial| ≤ 1 / 10 ^ 50 := by
    refine h3.trans ((mul_le_mul_of_nonneg_right (pow_le_pow_left₀ (abs_nonneg x) hx1 36) (by positivity)).trans ?_)
    norm_num [Nat.factorial]
  have h5 : |(2 : ℝ) ^ (y / 2) - Real.exp x| ≤ 3 / 10 ^ 40 := by
    rw [Real.rpow_def_of_pos (by norm_num), show Real.log 2 * (y / 2) = x + (Real.log 2 - ln2Lo) / 2 * y by rw [hx]; ring, Real.exp_add]
    obtain ⟨z, hz⟩ : ∃ z, z = (Real.log 2 - ln2Lo) / 2 * y := ⟨_, rfl⟩
    have hz1 : |z| ≤ 1 / 10 ^ 40 := by
      rw [hz, abs_mul, abs_div, abs_two]
      nlinarith [abs_nonneg y, abs_nonneg (Real.log 2 - ln2Lo)]
    have hz2 : |z| ≤ 1 := hz1.trans (by norm_num)
    have h6 := Real.abs_exp_sub_one_le hz2
    have h7 : Real.exp x ≤ 3 / 2 := by
      have := Real.exp_bound' (x := 7 / 20) (by norm_num) (by norm_num) (n := 3) (by norm_num)
      norm_num [Finset.sum_range_succ, Nat.factorial] at this
      exact (Real.exp_le_exp.2 (abs_le.1 hx1).2).trans (by linarith)
    rw [← hz, show Real.exp x * Real.exp z - Real.exp x = Real.exp x * (Real.exp z - 1) by ring, abs_mul, abs_of_pos (Real.exp_pos x)]
    calc Real.exp x * |Real.exp z - 1| ≤ 3 / 2 * (2 * (1 / 10 ^ 40)) := by gcongr; exact h6.trans (by linarith)
      _ = _ := by norm_num
  have h6 : |(2 : ℝ) ^ (y / 2) - (zPoly (floorList 160 exp2Term 36 0)).eval (2 * y) / 2 ^ 160| ≤ 3 / 10 ^ 40 + 1 / 10 ^ 50 + 2 ^ 36 / 2 ^ 160 := by
    rw [abs_sub_comm] at h2
    calc _ = |((2 : ℝ) ^ (y / 2) - Real.exp x) + (Real.exp x - ∑ i ∈ Finset.range 36, x ^ i / i.factorial) +
        (∑ i ∈ Finset.range 36, x ^ i / i.factorial - (zPoly (floorList 160 exp2Term 36 0)).eval (2 * y) / 2 ^ 160)| := by congr 1; ring
      _ ≤ _ := (abs_add_three _ _ _).trans (by gcongr)
  refine h6.trans ?_
  push_cast
  norm_num

/-- The certificate; `c` is what is subtracted. -/
def exp2Cert (N n : ℕ) (c η' M₀ M ε A : ℚ) : ChebBudget :=
  ⟨N, n, 1 / 2, 160, chebOfPoly (floorList 160 exp2Term 36 0), 1, c, 1 / 10 ^ 37, 8 * (1 / 10 ^ n), η', 1, 3, M₀, M, ε, A⟩

theorem exp2_fits_of (ext : BdExt) (s : ApproxSpec) (N n : ℕ) (c : ℕ) (η' M₀ M ε A : ℚ) (hb : s.bounds = some (⟨-5, 1⟩, ⟨5, 1⟩)) (hp : s.parity = .neither)
    (hs : ∀ d : Dec, (⟨-5, 1⟩ : Dec).val ≤ d.val → d.val ≤ (⟨5, 1⟩ : Dec).val → ∃ y, sampleAt ext s.target [s.var] n d = .ok y ∧
      |(y.val : ℝ) - ((2 : ℝ) ^ (d.val : ℝ) - c)| ≤ 8 * (1 / 10 ^ n)) :
    (exp2Cert N n c η' M₀ M ε A).Fits ext s ⟨-5, 1⟩ ⟨5, 1⟩ (fun t => (2 : ℝ) ^ t - c) 1 (-c) := by
  have hlo : (⟨-5, 1⟩ : Dec).val = -(1 / 2) := by decide +kernel
  have hhi : (⟨5, 1⟩ : Dec).val = 1 / 2 := by decide +kernel
  refine ChebBudget.fits (exp2Cert N n c η' M₀ M ε A) ext s ⟨-5, 1⟩ ⟨5, 1⟩ hb (by rw [hlo]; rfl) (by rw [hhi]; rfl) (by rw [hp]; trivial) _ (by rw [hp]; trivial) 1 (-c)
    (by simp [exp2Cert]) (by simp [exp2Cert]) (by rw [hp]; simp) (fun y hy => ?_) (fun d h3 h4 => ?_)
  · simp only [exp2Cert]
    rw [zCheb_ofPoly_eval]
    have := exp2_cut hy
    rw [show ((1 / 2 : ℚ) : ℝ) * y = y / 2 by push_cast; ring, one_mul, ← sub_eq_add_neg, sub_sub_sub_cancel_right]
    exact this
  · obtain ⟨y, h5, h6⟩ := hs d h3 h4
    refine ⟨y, h5, ?_⟩
    simp only [exp2Cert]
    push_cast
    exact h6

theorem exp2_fits (ext : BdExt) (hf : 5 ≤ ext.fuel) (N n : ℕ) (η' M₀ M ε A : ℚ) (h : (exp2Cert N n 0 η' M₀ M ε A).ok) :
    (exp2Cert N n 0 η' M₀ M ε A).Fits ext .exp2 ⟨-5, 1⟩ ⟨5, 1⟩ (fun t => (2 : ℝ) ^ t) 1 0 := by
  have := exp2_fits_of ext .exp2 N n 0 η' M₀ M ε A rfl rfl (fun d h3 h4 => by
    obtain ⟨y, h5, h6⟩ := exp2_sample ext hf n h.1.2.1 h.1.2.2.1 d h3 h4
    exact ⟨y, h5, by simpa using h6⟩)
  simpa using this

theorem exp_m1_fits (ext : BdExt) (hf : 5 ≤ ext.fuel) (N n : ℕ) (η' M₀ M ε A : ℚ) (h : (exp2Cert N n 1 η' M₀ M ε A).ok) :
    (exp2Cert N n 1 η' M₀ M ε A).Fits ext .exp_m1 ⟨-5, 1⟩ ⟨5, 1⟩ (fun t => (2 : ℝ) ^ t - 1) 1 (-1) := by
  have := exp2_fits_of ext .exp_m1 N n 1 η' M₀ M ε A rfl rfl (fun d h3 h4 => by
    obtain ⟨y, h5, h6⟩ := exp_m1_sample ext hf n h.1.2.1 h.1.2.2.1 d h3 h4
    exact ⟨y, h5, by simpa using h6⟩)
  simpa using this

end Verif

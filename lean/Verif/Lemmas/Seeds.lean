import Verif.Lemmas.IeeeRound
import Mathlib.Analysis.SpecialFunctions.Pow.Real
import Mathlib.Analysis.Convex.SpecificFunctions.Basic
import Mathlib.Analysis.Complex.ExponentialBounds

/-!
# Bit patterns as logarithms

The pattern of a positive float, divided by `2^mant`, is the exponent plus the mantissa: nearly its logarithm.  A linear map of the
pattern is nearly a power.
-/

namespace Verif

theorem two_rpow_le {t : ℝ} (h0 : 0 ≤ t) (h1 : t ≤ 1) : (2 : ℝ) ^ t ≤ 1 + t := by
  have := _root_.rpow_one_add_le_one_add_mul_self (s := 1) (by norm_num) h0 h1
  norm_num at this; linarith

/-- `1 + t ≤ 2/(e ln 2) 2^t`. -/
theorem le_two_rpow (t : ℝ) : 1 + t ≤ 10615 / 10000 * (2 : ℝ) ^ t := by
  by_cases ht : 1 + t ≤ 0
  · have : (0 : ℝ) < 2 ^ t := by positivity
    linarith
  have h := Real.add_one_le_exp ((1 + t) * Real.log 2 - 1)
  have he : Real.exp ((1 + t) * Real.log 2 - 1) = 2 * 2 ^ t / Real.exp 1 := by
    rw [Real.exp_sub, add_mul, one_mul, Real.exp_add, Real.exp_log (by norm_num), Real.rpow_def_of_pos (by norm_num), mul_comm t]
  rw [he, le_div_iff₀ (Real.exp_pos 1)] at h
  have h1 := Real.exp_one_gt_d9
  have h2 := Real.log_two_gt_d9
  have h3 : 1 + t ≤ 10615 / 10000 * ((1 + t) * (27182818 / 10000000 * (6931471 / 10000000)) / 2) := by nlinarith
  have h4 : (27182818 / 10000000 * (6931471 / 10000000) : ℝ) ≤ Real.log 2 * Real.exp 1 := by nlinarith
  have h5 := mul_le_mul_of_nonneg_left h4 (by linarith : 0 ≤ 1 + t)
  nlinarith

namespace FloatFmt
variable {F : FloatFmt}

/-- A positive normal pattern and its float. -/
theorem pattern_pow {n : ℕ} (h1 : 2 ^ F.mant ≤ n) (h2 : n < F.maxPat) {y : ℝ} (hy : F.decode n = .f y) :
    (2 : ℝ) ^ ((n : ℝ) / 2 ^ F.mant - F.bias) ≤ y ∧ y ≤ 10615 / 10000 * (2 : ℝ) ^ ((n : ℝ) / 2 ^ F.mant - F.bias) := by
  have hm : (0 : ℝ) < 2 ^ F.mant := by positivity
  have hf : n % 2 ^ F.mant < 2 ^ F.mant := Nat.mod_lt _ (by positivity)
  have hE : n / 2 ^ F.mant < 2 ^ F.ebits - 1 := (Nat.div_lt_iff_lt_mul (by positivity)).2 h2
  have hE0 : 0 < n / 2 ^ F.mant := Nat.div_pos h1 (by positivity)
  have hsplit : n / 2 ^ F.mant * 2 ^ F.mant + n % 2 ^ F.mant = n := Nat.div_add_mod' _ _
  generalize n / 2 ^ F.mant = E at *
  generalize n % 2 ^ F.mant = f at *
  subst hsplit
  rw [decode_normal hE0 hE hf] at hy
  cases hy
  have e1 : (((E * 2 ^ F.mant + f : ℕ) : ℝ) / 2 ^ F.mant - F.bias) = (f : ℝ) / 2 ^ F.mant + (((E : ℤ) - F.bias : ℤ) : ℝ) := by
    push_cast; field_simp; ring
  have ht0 : (0 : ℝ) ≤ (f : ℝ) / 2 ^ F.mant := by positivity
  have ht1 : (f : ℝ) / 2 ^ F.mant ≤ 1 := by rw [div_le_one hm]; exact_mod_cast hf.le
  rw [e1, Real.rpow_add (by norm_num), Real.rpow_intCast, ← mul_assoc]
  exact ⟨mul_le_mul_of_nonneg_right (two_rpow_le ht0 ht1) (by positivity), mul_le_mul_of_nonneg_right (le_two_rpow _) (by positivity)⟩

/-- The pattern of a normal float. -/
theorem repr_pattern (hF : F.Ok) {x : ℝ} (hx : F.Repr x) (h0 : F.tiny ≤ x) (h1 : x < 2 ^ (F.bias + 1)) :
    2 ^ F.mant ≤ F.encode x ∧ F.encode x < F.maxPat ∧ F.decode (F.encode x) = .f x := by
  have hpos : 0 < x := tiny_pos.trans_le h0
  obtain ⟨n, hn, hd⟩ := (repr_iff hF).1 ⟨hx, by rwa [abs_of_pos hpos]⟩
  rcases finite_cases hF hn hd with ⟨h2, h3⟩ | ⟨k, h2, -, h3⟩
  · have he : F.encode x = n := by rw [h3]; exact encode_units hF h2
    rw [he]
    refine ⟨?_, h2, hd⟩
    by_contra hc
    rw [not_le] at hc
    rw [decode_subnormal hF hc] at hd
    cases hd
    have : (n : ℝ) * (2 : ℝ) ^ (1 - (F.bias : ℤ) - F.mant) < 2 ^ F.mant * (2 : ℝ) ^ (1 - (F.bias : ℤ) - F.mant) :=
      mul_lt_mul_of_pos_right (by exact_mod_cast hc) (by positivity)
    rw [← zpow_natCast (2 : ℝ) F.mant, ← zpow_add₀ (by norm_num), show ((F.mant : ℤ) + (1 - (F.bias : ℤ) - F.mant)) = 1 - F.bias by ring] at this
    unfold tiny at h0
    linarith
  · have : (0 : ℝ) ≤ F.units k * (2 : ℝ) ^ (1 - (F.bias : ℤ) - F.mant) := by positivity
    linarith

theorem maxPat_real (hF : F.Ok) : (F.maxPat : ℝ) = (2 * F.bias + 1) * 2 ^ F.mant := by
  have := two_bias hF
  unfold maxPat
  rw [show 2 ^ F.ebits - 1 = 2 * F.bias + 1 by omega]
  push_cast; ring

/-- The power that a linear map of the pattern computes: `t` is what is cast to the integer type. -/
theorem seed (hF : F.Wide) {x t p : ℝ} (hx : F.Repr x) (h0 : F.tiny ≤ x) (h1 : x < 2 ^ (F.bias + 1)) (ht0 : 2 ^ F.mant ≤ t) (ht1 : t < (2 * F.bias + 1) * 2 ^ F.mant)
    (ht : |t - (p * F.encode x + (1 - p) * (F.bias * 2 ^ F.mant))| ≤ 63 / 2 ^ 20 * 2 ^ F.mant) :
    ∃ (n : ℤ) (y L : ℝ), clampZ 0 (2 ^ F.width - 1) (truncR t) = n ∧ 0 ≤ n ∧ n < 2 ^ F.width ∧ F.decode n.toNat = .f y ∧ F.Repr y ∧
      L = (F.encode x : ℝ) / 2 ^ F.mant - F.bias ∧ (2 : ℝ) ^ L ≤ x ∧ x ≤ 10615 / 10000 * (2 : ℝ) ^ L ∧
      99995 / 100000 * (2 : ℝ) ^ (p * L) ≤ y ∧ y ≤ 10616 / 10000 * (2 : ℝ) ^ (p * L) := by
  obtain ⟨q1, q2, q3⟩ := repr_pattern hF.ok hx h0 h1
  obtain ⟨x1, x2⟩ := pattern_pow q1 q2 q3
  have hm : (0 : ℝ) < 2 ^ F.mant := by positivity
  have hm20 : (2 : ℝ) ^ 20 ≤ 2 ^ F.mant := pow_le_pow_right₀ (by norm_num) hF.mant
  have htp : 0 ≤ t := hm.le.trans ht0
  obtain ⟨n, hn⟩ : ∃ n, n = ⌊t⌋₊ := ⟨_, rfl⟩
  have hn1 : (n : ℝ) ≤ t := hn ▸ Nat.floor_le htp
  have hn2 : t < n + 1 := hn ▸ Nat.lt_floor_add_one t
  have hn3 : 2 ^ F.mant ≤ n := by rw [hn]; exact Nat.le_floor (by exact_mod_cast ht0)
  have hn4 : n < F.maxPat := by
    rw [← maxPat_real hF.ok] at ht1
    exact_mod_cast hn1.trans_lt ht1
  have htr : truncR t = n := by
    unfold truncR
    rw [if_pos htp, hn]
    exact (Int.natCast_floor_eq_floor htp).symm
  have hw := two_pow_width (F := F)
  have hmax := maxPat_le (F := F)
  have hn5 : n < 2 ^ F.width := by
    have : 2 ^ (F.mant + F.ebits) ≤ 2 ^ F.width := by rw [hw]; omega
    omega
  have hn6 : (n : ℤ) < 2 ^ F.width := by exact_mod_cast hn5
  obtain ⟨y, hy⟩ : ∃ y, F.decode n = .f y := ⟨_, decode_units hF.ok hn4⟩
  obtain ⟨y1, y2⟩ := pattern_pow hn3 hn4 hy
  obtain ⟨L, hL⟩ : ∃ L : ℝ, L = (F.encode x : ℝ) / 2 ^ F.mant - F.bias := ⟨_, rfl⟩
  rw [← hL] at x1 x2
  have hdiff : |(n : ℝ) / 2 ^ F.mant - F.bias - p * L| ≤ 1 / 2 ^ 14 := by
    have e : (n : ℝ) / 2 ^ F.mant - F.bias - p * L = (n - (p * F.encode x + (1 - p) * (F.bias * 2 ^ F.mant))) / 2 ^ F.mant := by
      rw [hL]; field_simp; ring
    rw [e, abs_div, abs_of_pos hm, div_le_iff₀ hm]
    have := abs_le.1 ht
    rw [abs_le]
    norm_num at *
    constructor <;> linarith
  have hd := abs_le.1 hdiff
  have hpos : (0 : ℝ) < 2 ^ (p * L) := by positivity
  have hlow : 99995 / 100000 * (2 : ℝ) ^ (p * L) ≤ (2 : ℝ) ^ ((n : ℝ) / 2 ^ F.mant - F.bias) := by
    have k : (2 : ℝ) ^ (p * L + -(1 / 2 ^ 14)) ≤ (2 : ℝ) ^ ((n : ℝ) / 2 ^ F.mant - F.bias) :=
      Real.rpow_le_rpow_of_exponent_le (by norm_num) (by norm_num at *; linarith)
    rw [Real.rpow_add (by norm_num), Real.rpow_neg (by norm_num), mul_comm] at k
    refine le_trans (mul_le_mul_of_nonneg_right ?_ hpos.le) k
    rw [le_inv_comm₀ (by norm_num) (by positivity)]
    have h14 : (1 / 2 ^ 14 : ℝ) ≤ 1 := by norm_num
    have h3 : (2 : ℝ) ^ (1 / 2 ^ 14 : ℝ) ≤ 1 / 99995 * 100000 := by
      have hc : Real.log 2 * (1 / 2 ^ 14) ≤ Real.log (1 / 99995 * 100000) := by
        have l1 := Real.log_two_lt_d9
        have l2 : 1 - (1 / 99995 * 100000 : ℝ)⁻¹ ≤ Real.log (1 / 99995 * 100000) := Real.one_sub_inv_le_log_of_pos (by norm_num)
        norm_num at l1 l2 ⊢
        linarith
      rw [Real.rpow_def_of_pos (by norm_num)]
      rw [← Real.exp_log (by norm_num : (0 : ℝ) < 1 / 99995 * 100000)]
      exact Real.exp_le_exp.2 hc
    refine h3.trans (by norm_num)
  have hup : (2 : ℝ) ^ ((n : ℝ) / 2 ^ F.mant - F.bias) ≤ 10000915 / 10000000 * (2 : ℝ) ^ (p * L) := by
    have k : (2 : ℝ) ^ ((n : ℝ) / 2 ^ F.mant - F.bias) ≤ (2 : ℝ) ^ (p * L + 1 / 2 ^ 14) :=
      Real.rpow_le_rpow_of_exponent_le (by norm_num) (by norm_num at *; linarith)
    rw [Real.rpow_add (by norm_num), mul_comm] at k
    refine k.trans (mul_le_mul_of_nonneg_right ?_ hpos.le)
    exact (two_rpow_le (by norm_num) (by norm_num)).trans (by norm_num)
  refine ⟨n, y, L, ?_, by omega, hn6, by simpa using hy, (decode_repr hF.ok hn5 hy).1, hL, x1, x2, hlow.trans y1, y2.trans ?_⟩
  · rw [htr]; unfold clampZ; split_ifs <;> omega
  · linarith

end FloatFmt
end Verif

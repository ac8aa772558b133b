import Mathlib.Analysis.Real.Pi.Bounds
import Verif.Lemmas.Atan

/-! # The decimal expansion of π in `pi` -/

namespace Verif
namespace Bd
open Dec Finset

/-- Partial sums of the arctangent series at `1/q`, computed from the last term down. -/
def atanSum (q : ℕ) : ℕ → ℚ
  | 0 => 0
  | k + 1 => atanSum q k + atanC k * (1 / (q : ℚ)) ^ k

theorem atanSum_eq (q k : ℕ) : atanSum q k = ∑ j ∈ range k, atanC j * (1 / (q : ℚ)) ^ j := by
  induction k with
  | zero => rfl
  | succ k ih => rw [atanSum, ih, Finset.sum_range_succ]

theorem arctan_partial (q k : ℕ) (hq : 2 ≤ q) : |Real.arctan (1 / (q : ℝ)) - (atanSum q k : ℝ)| ≤ 2 / (q : ℝ) ^ k := by
  have hq0 : (2 : ℝ) ≤ q := by exact_mod_cast hq
  have hx0 : (0 : ℝ) ≤ 1 / (q : ℝ) := by positivity
  have hx : (1 : ℝ) / q ≤ 1 / 2 := one_div_le_one_div_of_le (by norm_num) hq0
  have ha := hasSum_atan (1 / (q : ℝ)) (by rw [abs_of_nonneg hx0]; linarith)
  rw [atanSum_eq]
  push_cast
  have h1 : Real.arctan (1 / (q : ℝ)) - ∑ j ∈ range k, (atanC j : ℝ) * (1 / (q : ℝ)) ^ j =
      ∑' i, (atanC (i + k) : ℝ) * (1 / (q : ℝ)) ^ (i + k) := by
    have := ha.summable.sum_add_tsum_nat_add k
    rw [ha.tsum_eq] at this
    linarith
  rw [h1]
  have hw := (hasSum_geometric_of_lt_one (r := (1 / 2 : ℝ)) (by norm_num) (by norm_num)).mul_left (1 / (q : ℝ) ^ k)
  have := tsum_of_norm_bounded hw (f := fun i => (atanC (i + k) : ℝ) * (1 / (q : ℝ)) ^ (i + k)) (fun i => by
    rw [Real.norm_eq_abs, abs_mul, abs_of_nonneg (pow_nonneg hx0 _)]
    have h2 : |(atanC (i + k) : ℝ)| ≤ 1 := by
      have := geoLike_atan.le_one (i + k)
      have h3 : ((|atanC (i + k)| : ℚ) : ℝ) ≤ ((1 : ℚ) : ℝ) := by exact_mod_cast this
      push_cast at h3; exact h3
    calc |(atanC (i + k) : ℝ)| * (1 / (q : ℝ)) ^ (i + k) ≤ 1 * (1 / (q : ℝ)) ^ (i + k) := by gcongr
      _ = 1 / (q : ℝ) ^ k * (1 / (q : ℝ)) ^ i := by rw [one_mul, pow_add, one_div_pow (q : ℝ) k]; ring
      _ ≤ 1 / (q : ℝ) ^ k * (1 / 2) ^ i := by gcongr)
  rw [Real.norm_eq_abs] at this
  refine this.trans (le_of_eq ?_)
  norm_num
  ring

/-- The parsed constant of `bdmath.rs:56`. -/
def piDec : Dec := (parseDec piText).getD Dec.zero

theorem parse_pi : parseDec piText = some piDec := by decide +kernel

/-- Machin's formula evaluated with exact rational arithmetic. -/
theorem pi_close_rat : |piDec.val - 4 * (4 * atanSum 5 230 - atanSum 239 70)| ≤ 1 / 10 ^ 153 := by decide +kernel

theorem pi_close : |(piDec.val : ℝ) - Real.pi| ≤ 2 / 10 ^ 153 := by
  have h1 := arctan_partial 5 230 (by norm_num)
  have h2 := arctan_partial 239 70 (by norm_num)
  have h3 : |(piDec.val : ℝ) - 4 * (4 * (atanSum 5 230 : ℝ) - (atanSum 239 70 : ℝ))| ≤ 1 / 10 ^ 153 := by
    have : ((|piDec.val - 4 * (4 * atanSum 5 230 - atanSum 239 70)| : ℚ) : ℝ) ≤ ((1 / 10 ^ 153 : ℚ) : ℝ) := by
      exact_mod_cast pi_close_rat
    push_cast at this
    exact this
  have h4 := Real.four_mul_arctan_inv_5_sub_arctan_inv_239
  push_cast at h1 h2
  rw [show (1 : ℝ) / 5 = 5⁻¹ by norm_num] at h1
  rw [show (1 : ℝ) / 239 = 239⁻¹ by norm_num] at h2
  have e1 : (2 : ℝ) / 5 ^ 230 ≤ 1 / 10 ^ 153 / 64 := by
    rw [div_div, div_le_div_iff₀ (by positivity) (by positivity)]
    norm_num
  have e2 : (2 : ℝ) / 239 ^ 70 ≤ 1 / 10 ^ 153 / 64 := by
    rw [div_div, div_le_div_iff₀ (by positivity) (by positivity)]
    norm_num
  have h1' := h1.trans e1
  have h2' := h2.trans e2
  have e3 : (2 : ℝ) / 10 ^ 153 = 2 * (1 / 10 ^ 153) := by ring
  rw [e3]
  have hp : (0 : ℝ) < 1 / 10 ^ 153 := by positivity
  generalize (1 : ℝ) / 10 ^ 153 = w at *
  generalize (atanSum 5 230 : ℝ) = A at *
  generalize (atanSum 239 70 : ℝ) = B at *
  rw [abs_le] at *
  constructor <;> linarith [h1'.1, h1'.2, h2'.1, h2'.2, h3.1, h3.2]

/-- No tie is near: every rounding of the constant stays clear of half a unit. -/
theorem pi_round_rat : ∀ n : Fin 100, |(round piDec (n : Nat)).val - piDec.val| + 1 / 10 ^ 150 < 1 / 2 / 10 ^ (n : Nat) := by
  decide +kernel

theorem machin_error (ext : BdExt) (hf : 1 ≤ ext.fuel) (n : ℕ) (h100 : 100 ≤ n) (hn : 8 * n + 9 ≤ 30001) :
    ∃ d, pi ext n = .ok d ∧ |(d.val : ℝ) - Real.pi| ≤ 20 * atanE n + 1 / 10 ^ 99 := by
  obtain ⟨k, hk⟩ : ∃ k, ext.fuel = k + 1 := ⟨ext.fuel - 1, by omega⟩
  have v5 : (ofInt 5).val = 5 := by rw [val_ofInt]; norm_num
  have v239 : (ofInt 239).val = 239 := by rw [val_ofInt]; norm_num
  obtain ⟨q5, hq5, he5⟩ := (div_spec Dec.one (ofInt 5)).2 (by rw [v5]; norm_num)
  obtain ⟨q239, hq239, he239⟩ := (div_spec Dec.one (ofInt 239)).2 (by rw [v239]; norm_num)
  rw [v5, val_one] at he5
  rw [v239, val_one] at he239
  have he5' : |q5.val - 1 / 5| ≤ 1 / 10 ^ 99 / 10 := he5.trans (by
    unfold divEps; rw [abs_of_pos (by norm_num)]; norm_num)
  have he239' : |q239.val - 1 / 239| ≤ 1 / 10 ^ 99 / 100 := he239.trans (by
    unfold divEps; rw [abs_of_pos (by norm_num)]; norm_num)
  have hs : (1 : ℚ) / 10 ^ 99 ≤ 1 / 100 := by norm_num
  have hle5 : |q5.val| ≤ 1 / 2 := by
    rw [abs_le] at *; constructor <;> linarith [he5'.1, he5'.2]
  have hle239 : |q239.val| ≤ 1 / 2 := by
    rw [abs_le] at *; constructor <;> linarith [he239'.1, he239'.2]
  obtain ⟨a5, h5, ha5⟩ := atan_series q5 n hle5 hn
  obtain ⟨a239, h239, ha239⟩ := atan_series q239 n hle239 hn
  refine ⟨(a5 * ofInt 4 - a239) * ofInt 4, ?_, ?_⟩
  · unfold pi Bd.atan
    rw [if_neg (by omega), hk]
    simp only [hq5, hq239, Res.ok_bind, atanRec_small ext n k q5 hle5, atanRec_small ext n k q239 hle239, h5, h239]
    rfl
  · have c5 : |(q5.val : ℝ) - 5⁻¹| ≤ 1 / 10 ^ 99 / 10 := by
      have : ((|q5.val - 1 / 5| : ℚ) : ℝ) ≤ ((1 / 10 ^ 99 / 10 : ℚ) : ℝ) := by exact_mod_cast he5'
      push_cast at this
      rw [show (5 : ℝ)⁻¹ = 1 / 5 by norm_num]; exact this
    have c239 : |(q239.val : ℝ) - 239⁻¹| ≤ 1 / 10 ^ 99 / 100 := by
      have : ((|q239.val - 1 / 239| : ℚ) : ℝ) ≤ ((1 / 10 ^ 99 / 100 : ℚ) : ℝ) := by exact_mod_cast he239'
      push_cast at this
      rw [show (239 : ℝ)⁻¹ = 1 / 239 by norm_num]; exact this
    -- 1/5 divides exactly
    have q5e : q5.val = 1 / 5 := by
      have e : Dec.div Dec.one (ofInt 5) = .ok ⟨2, 1⟩ := by decide +kernel
      rw [e] at hq5
      injection hq5 with hq5
      rw [← hq5]
      norm_num [Dec.val]
    have c5' : |(q5.val : ℝ) - 5⁻¹| ≤ 0 := by
      rw [q5e]; norm_num
    have l5 := (arctan_lipschitz (q5.val : ℝ) 5⁻¹).trans c5'
    have l239 := (arctan_lipschitz (q239.val : ℝ) 239⁻¹).trans c239
    have h4 := Real.four_mul_arctan_inv_5_sub_arctan_inv_239
    have hv : (((a5 * ofInt 4 - a239) * ofInt 4).val : ℝ) = (a5.val * 4 - a239.val) * 4 := by
      rw [val_mul, val_sub, val_mul, val_ofInt]; push_cast; ring
    rw [hv]
    have hw : (0 : ℝ) < 1 / 10 ^ 99 := by positivity
    generalize (1 : ℝ) / 10 ^ 99 = w at *
    generalize atanE n = E at *
    rw [abs_le] at *
    constructor <;> linarith [l5.1, l5.2, l239.1, l239.2, ha5.1, ha5.2, ha239.1, ha239.2]

end Bd
end Verif

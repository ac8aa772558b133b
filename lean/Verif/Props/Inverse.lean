import Mathlib.Analysis.Real.Sqrt
import Verif.Lemmas.Asin
import Verif.Lemmas.Ln
import Verif.Lemmas.PowBounds
import Verif.Props.Series

/-!
# C25, C26, C27, C29, C63: accuracy of atan, asin, acos, ln and pi

The external square root is assumed to have a relative error of at most `10^-98` (`SqrtOk`); `goodExt` below is an
environment that meets the assumption.
-/

namespace Verif
open Bd Dec

/-! ## An environment with an accurate square root -/

/-- Square root by integer square root of a number scaled up by at least 200 digits. -/
def natSqrt (d : Dec) : Option Dec :=
  if d.int < 0 then none
  else
    let e := d.scale % 2
    some ⟨Nat.sqrt (d.int.toNat * 10 ^ (200 + e.toNat)), (d.scale + 200 + e) / 2⟩

/-- The environment used in examples. -/
def goodExt : BdExt := { fuelExt with sqrt := natSqrt }

theorem natSqrt_spec (d : Dec) (hd : 0 ≤ d.val) :
    ∃ r, natSqrt d = some r ∧ |(r.val : ℝ) - √(d.val : ℝ)| ≤ 1 / 10 ^ 98 * √(d.val : ℝ) := by
  obtain ⟨i, s⟩ := d
  have hi : 0 ≤ i := by
    by_contra h
    have hneg : (⟨i, s⟩ : Dec).val < 0 := by
      unfold Dec.val
      have : (i : ℚ) < 0 := by exact_mod_cast (not_le.1 h)
      have := Dec.zpow_pos' (-s)
      nlinarith
    linarith
  obtain ⟨m, rfl⟩ : ∃ m : ℕ, i = m := ⟨i.toNat, by omega⟩
  unfold natSqrt
  simp only [Int.toNat_natCast]
  rw [if_neg (by omega)]
  refine ⟨_, rfl, ?_⟩
  have he : 0 ≤ s % 2 := by omega
  obtain ⟨e, hes⟩ : ∃ e : ℕ, s % 2 = e := ⟨(s % 2).toNat, by omega⟩
  obtain ⟨t, ht⟩ : ∃ t : ℤ, s + 200 + e = 2 * t := ⟨(s + 200 + e) / 2, by omega⟩
  simp only [hes, Int.toNat_natCast]
  rw [show (s + 200 + (e : ℤ)) / 2 = t by omega]
  set N := m * 10 ^ (200 + e) with hN
  have hp : (0 : ℝ) < (10 : ℝ) ^ (-t) := by positivity
  -- √d = √N * 10^-t
  have hroot : √((⟨(m : ℤ), s⟩ : Dec).val : ℝ) = √(N : ℝ) * (10 : ℝ) ^ (-t) := by
    have h1 : (((⟨(m : ℤ), s⟩ : Dec).val : ℚ) : ℝ) = (N : ℝ) * ((10 : ℝ) ^ (-t)) ^ 2 := by
      unfold Dec.val
      push_cast
      rw [hN]
      push_cast
      rw [mul_assoc, ← zpow_natCast (10 : ℝ) (200 + e), ← zpow_natCast ((10 : ℝ) ^ (-t)) 2, ← zpow_mul, ← zpow_add₀ (by norm_num)]
      congr 2
      push_cast
      omega
    rw [h1, Real.sqrt_mul (by positivity), Real.sqrt_sq hp.le]
  have hval : (((⟨(Nat.sqrt N : ℤ), t⟩ : Dec).val : ℚ) : ℝ) = (Nat.sqrt N : ℝ) * (10 : ℝ) ^ (-t) := by
    unfold Dec.val; push_cast; rfl
  rw [hroot, hval, ← sub_mul, abs_mul, abs_of_pos hp, ← mul_assoc]
  gcongr
  have l1 : (Nat.sqrt N : ℝ) ≤ √(N : ℝ) := Real.nat_sqrt_le_real_sqrt
  have l2 : √(N : ℝ) < Nat.sqrt N + 1 := Real.real_sqrt_lt_nat_sqrt_succ
  rw [abs_sub_comm, abs_of_nonneg (by linarith)]
  rcases Nat.eq_zero_or_pos m with h0 | h0
  · simp [hN, h0]
  · have hbig : (10 : ℝ) ^ 100 ≤ √(N : ℝ) := by
      apply Real.le_sqrt_of_sq_le
      rw [hN]
      push_cast
      rw [pow_add, ← pow_mul]
      have h1 : (1 : ℝ) ≤ m := by exact_mod_cast h0
      have h2 : (1 : ℝ) ≤ 10 ^ e := one_le_pow₀ (by norm_num)
      calc (10 : ℝ) ^ (100 * 2) = 1 * (10 ^ 200 * 1) := by norm_num
        _ ≤ (m : ℝ) * (10 ^ 200 * 10 ^ e) := by gcongr
    have : 1 ≤ 1 / 10 ^ 98 * √(N : ℝ) := by
      calc (1 : ℝ) ≤ 1 / 10 ^ 98 * 10 ^ 100 := by norm_num
        _ ≤ _ := by gcongr
    linarith

/-- The assumption `SqrtOk` can be met. -/
theorem goodExt_ok : SqrtOk goodExt where
  ok d hd := natSqrt_spec d hd
  neg d hd := by
    have hi : d.int < 0 := by
      by_contra h
      push Not at h
      have : 0 ≤ d.val := by
        unfold Dec.val
        have h1 : (0 : ℚ) ≤ (d.int : ℚ) := by exact_mod_cast h
        have := Dec.zpow_pos' (-d.scale)
        positivity
      linarith
    show natSqrt d = none
    unfold natSqrt
    rw [if_pos hi]

/-! ## C29, C63: pi -/

/-- **C29** For fewer than 100 digits `pi` is π correctly rounded: a multiple of `10^-n` within half a unit of π. -/
theorem C29_pi_correctly_rounded (ext : BdExt) (n : ℕ) (hn : n < 100) :
    ∃ d, Bd.pi ext n = .ok d ∧ (∃ k : ℤ, d.val = k * 10 ^ (-(n : ℤ))) ∧ |(d.val : ℝ) - Real.pi| < 1 / 2 / 10 ^ n := by
  refine ⟨round piDec n, ?_, ?_, ?_⟩
  · unfold Bd.pi
    rw [if_pos (by exact_mod_cast hn), parse_pi]
    rfl
  · rw [val_round (by omega)]
    exact rndAway_int _ _
  · have h1 := pi_round_rat ⟨n, hn⟩
    have h2 := pi_close
    have h3 : |((round piDec (n : Int)).val : ℝ) - piDec.val| + 1 / 10 ^ 150 < 1 / 2 / 10 ^ n := by
      have : ((|(round piDec (n : Int)).val - piDec.val| + 1 / 10 ^ 150 : ℚ) : ℝ) < ((1 / 2 / 10 ^ n : ℚ) : ℝ) := by
        exact_mod_cast h1
      push_cast at this
      exact this
    have h4 := abs_sub_le ((round piDec (n : Int)).val : ℝ) piDec.val Real.pi
    have h5 : (2 : ℝ) / 10 ^ 153 ≤ 1 / 10 ^ 150 := by norm_num
    linarith

/-- **C29** For a negative digit count the stored 153 decimals are returned unrounded. -/
theorem C29_pi_negative_digits (ext : BdExt) (n : ℤ) (hn : n < 0) :
    ∃ d, Bd.pi ext n = .ok d ∧ |(d.val : ℝ) - Real.pi| ≤ 2 / 10 ^ 153 := by
  refine ⟨piDec, ?_, pi_close⟩
  unfold Bd.pi
  rw [if_pos (by omega), parse_pi]
  show Res.ok (round piDec n) = .ok piDec
  rw [round_neg_digits hn]

example : Bd.pi fuelExt 4 = .ok ⟨31416, 4⟩ := by decide +kernel

/-- **C63** From 100 digits on, `pi` is Machin's formula evaluated with the arctangent series, and its error is at most 20
series errors plus `10^-99` for the rounded quotient `1/239`. -/
theorem C63_pi_machin_error (ext : BdExt) (hf : 1 ≤ ext.fuel) (n : ℕ) (h100 : 100 ≤ n) (hn : 8 * n + 9 ≤ 30001) :
    ∃ d, Bd.pi ext n = .ok d ∧
      |(d.val : ℝ) - Real.pi| ≤ 20 * (1 / 20 / 10 ^ n + 1 / 10 ^ 99 + 1 / 100 ^ n * (36 * n + 43)) + 1 / 10 ^ 99 :=
  machin_error ext hf n h100 hn

/-- **C63** The formula. -/
theorem C63_pi_machin_formula (ext : BdExt) (n : ℤ) (h100 : 100 ≤ n) (d : Dec) (h : Bd.pi ext n = .ok d) :
    ∃ q5 q239 a5 a239, Dec.div Dec.one (Dec.ofInt 5) = .ok q5 ∧ Dec.div Dec.one (Dec.ofInt 239) = .ok q239 ∧
      Bd.atan ext q5 n = .ok a5 ∧ Bd.atan ext q239 n = .ok a239 ∧ d.val = 4 * (4 * a5.val - a239.val) := by
  unfold Bd.pi at h
  rw [if_neg (by omega)] at h
  simp only [Res.bind_eq_ok] at h
  obtain ⟨q5, h5, a5, ha5, q239, h239, a239, ha239, h⟩ := h
  refine ⟨q5, q239, a5, a239, h5, h239, ha5, ha239, ?_⟩
  rw [Res.pure_eq] at h
  injection h with h
  rw [← h, val_mul, val_sub, val_mul, val_ofInt]
  push_cast
  ring

/-- What `pi` returns for 110 digits. -/
def pi110 : Dec := match Bd.pi fuelExt 110 with | .ok d => d | _ => Dec.zero

/-- **C63** Division keeps 100 significant digits, so asking for more than about 100 digits does not deliver them: the
110-digit value is wrong in the 102nd decimal, and is less accurate than the 99-digit constant it replaces. -/
theorem C63_pi_110_digits_wrong : Bd.pi fuelExt 110 = .ok pi110 ∧ 1 / 10 ^ 102 < |(pi110.val : ℝ) - Real.pi| := by
  constructor
  · decide +kernel
  · have h1 : 2 / 10 ^ 102 < |pi110.val - piDec.val| := by decide +kernel
    have h2 := pi_close
    have h3 : (2 : ℝ) / 10 ^ 102 < |(pi110.val : ℝ) - piDec.val| := by
      have : ((2 / 10 ^ 102 : ℚ) : ℝ) < ((|pi110.val - piDec.val| : ℚ) : ℝ) := by exact_mod_cast h1
      push_cast at this; exact this
    have h4 := abs_sub_le (pi110.val : ℝ) Real.pi piDec.val
    rw [abs_sub_comm Real.pi] at h4
    have h5 : (2 : ℝ) / 10 ^ 153 ≤ 1 / 10 ^ 102 := by norm_num
    have h6 : (2 : ℝ) / 10 ^ 102 = 1 / 10 ^ 102 + 1 / 10 ^ 102 := by ring
    linarith

/-! ## C25: atan -/

/-- **C25** For every argument, of any size, and every digit count within the loop guard, `atan` returns within two range
reductions and its error is at most four series errors plus `24·10^-98`. -/
theorem C25_atan_error (ext : BdExt) (hs : SqrtOk ext) (hfuel : 3 ≤ ext.fuel) (x : Dec) (n : ℕ) (hn : 8 * n + 9 ≤ 30001) :
    ∃ d, Bd.atan ext x n = .ok d ∧ |(d.val : ℝ) - Real.arctan (x.val : ℝ)| ≤
      4 * (1 / 20 / 10 ^ n + 1 / 10 ^ 99 + 1 / 100 ^ n * (36 * n + 43)) + 24 / 10 ^ 98 :=
  atan_error ext hs hfuel x n hn

theorem atanE_le3 (n : ℕ) (h3 : 3 ≤ n) (h95 : n ≤ 95) : 4 * atanE n + 24 / 10 ^ 98 < 1 / 10 ^ n := by
  unfold atanE
  have hp : (0 : ℝ) < 1 / 10 ^ n := by positivity
  have h1 := div_hundred_pow 36 43 0.16 n (lin_le_pow 36 43 3 n h3 (by norm_num) 0.16 (by norm_num) (by norm_num))
  have h2 : (24 : ℝ) / 10 ^ 98 ≤ 0.024 * (1 / 10 ^ n) := by
    have := ten_pow_le n 95 0.024 (by norm_num) h95
    calc (24 : ℝ) / 10 ^ 98 = 0.024 / 10 ^ 95 := by norm_num
      _ ≤ _ := this
  have h4 : (1 : ℝ) / 10 ^ 99 ≤ 0.01 * (1 / 10 ^ n) := by
    have := ten_pow_le n 95 0.01 (by norm_num) h95
    calc (1 : ℝ) / 10 ^ 99 ≤ 0.01 / 10 ^ 95 := by norm_num
      _ ≤ _ := this
  have e : (1 : ℝ) / 20 / 10 ^ n = 1 / 20 * (1 / 10 ^ n) := by ring
  rw [e]
  generalize (1 : ℝ) / 10 ^ n = w at *
  linarith

/-- **C25** In particular the error is below `10^-n` for 3 to 95 digits, for every argument. -/
theorem C25_atan_accurate (ext : BdExt) (hs : SqrtOk ext) (hfuel : 3 ≤ ext.fuel) (x : Dec) (n : ℕ) (h3 : 3 ≤ n) (h95 : n ≤ 95) :
    ∃ d, Bd.atan ext x n = .ok d ∧ |(d.val : ℝ) - Real.arctan (x.val : ℝ)| < 1 / 10 ^ n := by
  obtain ⟨d, h1, h2⟩ := atan_error ext hs hfuel x n (by omega)
  exact ⟨d, h1, h2.trans_lt (atanE_le3 n h3 h95)⟩

example : SqrtOk goodExt ∧ 3 ≤ goodExt.fuel := ⟨goodExt_ok, by decide⟩
example : (match Bd.atan goodExt ⟨-1000, 0⟩ 5 with | .ok d => round d 4 | _ => Dec.zero) = ⟨-15698, 4⟩ := by decide +kernel

/-! ## C26: asin, acos -/

theorem asinE_le (n : ℕ) (h4 : 4 ≤ n) (h94 : n ≤ 94) : asinE n ≤ 0.6 * (1 / 10 ^ n) := by
  unfold asinE piE atanE
  rw [if_pos (by omega)]
  have h1 := div_hundred_pow 36 43 0.019 n (lin_le_pow 36 43 4 n h4 (by norm_num) 0.019 (by norm_num) (by norm_num))
  have h2 : (100 : ℝ) / 10 ^ 98 ≤ 0.02 * (1 / 10 ^ n) := by
    have := ten_pow_le n 94 0.02 (by norm_num) h94
    calc (100 : ℝ) / 10 ^ 98 ≤ 0.02 / 10 ^ 94 := by norm_num
      _ ≤ _ := this
  have h4 : (1 : ℝ) / 10 ^ 99 ≤ 0.001 * (1 / 10 ^ n) := by
    have := ten_pow_le n 94 0.001 (by norm_num) h94
    calc (1 : ℝ) / 10 ^ 99 ≤ 0.001 / 10 ^ 94 := by norm_num
      _ ≤ _ := this
  have e : (1 : ℝ) / 20 / 10 ^ n = 1 / 20 * (1 / 10 ^ n) := by ring
  have e2 : (1 : ℝ) / 2 / 10 ^ n = 1 / 2 * (1 / 10 ^ n) := by ring
  rw [e, e2]
  have hp : (0 : ℝ) < 1 / 10 ^ n := by positivity
  generalize (1 : ℝ) / 10 ^ n = w at *
  linarith

/-- **C26** On `[-1, 1]` `asin` returns, with an error of at most half the error of `pi` plus four series errors. -/
theorem C26_asin_error (ext : BdExt) (hs : SqrtOk ext) (hfuel : 3 ≤ ext.fuel) (x : Dec) (n : ℕ) (hx : |x.val| ≤ 1)
    (hn : 8 * n + 9 ≤ 30001) :
    ∃ d, Bd.asin ext x n = .ok d ∧ |(d.val : ℝ) - Real.arcsin (x.val : ℝ)| ≤
      1 / 2 * (if n < 100 then 1 / 2 / 10 ^ n else 20 * atanE n + 1 / 10 ^ 99) +
        4 * (1 / 20 / 10 ^ n + 1 / 10 ^ 99 + 1 / 100 ^ n * (36 * n + 43)) + 100 / 10 ^ 98 :=
  asin_error ext hs hfuel x n hx hn

/-- **C26** For 4 to 94 digits the error of `asin` is below `10^-n`. -/
theorem C26_asin_accurate (ext : BdExt) (hs : SqrtOk ext) (hfuel : 3 ≤ ext.fuel) (x : Dec) (n : ℕ) (hx : |x.val| ≤ 1)
    (h4 : 4 ≤ n) (h94 : n ≤ 94) :
    ∃ d, Bd.asin ext x n = .ok d ∧ |(d.val : ℝ) - Real.arcsin (x.val : ℝ)| < 1 / 10 ^ n := by
  obtain ⟨d, h1, h2⟩ := asin_error ext hs hfuel x n hx (by omega)
  have := asinE_le n h4 h94
  have hp : (0 : ℝ) < 1 / 10 ^ n := by positivity
  exact ⟨d, h1, by linarith⟩

/-- **C26** For 4 to 94 digits the error of `acos` is below `10^-n`. -/
theorem C26_acos_accurate (ext : BdExt) (hs : SqrtOk ext) (hfuel : 3 ≤ ext.fuel) (x : Dec) (n : ℕ) (hx : |x.val| ≤ 1)
    (h4 : 4 ≤ n) (h94 : n ≤ 94) :
    ∃ d, Bd.acos ext x n = .ok d ∧ |(d.val : ℝ) - Real.arccos (x.val : ℝ)| < 1 / 10 ^ n := by
  obtain ⟨d, h1, h2⟩ := acos_error ext hs hfuel x n hx (by omega)
  have h3 := asinE_le n h4 h94
  have h5 : piE n = 1 / 2 * (1 / 10 ^ n) := by unfold piE; rw [if_pos (by omega)]; ring
  have h6 : (200 : ℝ) / 10 ^ 98 ≤ 0.02 * (1 / 10 ^ n) := by
    have := ten_pow_le n 94 0.02 (by norm_num) h94
    calc (200 : ℝ) / 10 ^ 98 ≤ 0.02 / 10 ^ 94 := by norm_num
      _ ≤ _ := this
  have hp : (0 : ℝ) < 1 / 10 ^ n := by positivity
  rw [h5] at h2
  refine ⟨d, h1, ?_⟩
  generalize (1 : ℝ) / 10 ^ n = w at *
  linarith

/-- **C26** Outside `[-1, 1]` both panic. -/
theorem C26_outside_panics (ext : BdExt) (hs : SqrtOk ext) (hfuel : 1 ≤ ext.fuel) (x : Dec) (n : ℕ) (hx : 1 < |x.val|)
    (hn : 8 * n + 9 ≤ 30001) : Bd.asin ext x n = .panic ∧ Bd.acos ext x n = .panic := by
  have h := asin_panic ext hs hfuel x n hx hn
  refine ⟨h, ?_⟩
  obtain ⟨p, hp, _⟩ := pi_error ext hfuel n hn
  obtain ⟨q, hq, _⟩ := div_real p Dec.two (by simp)
  unfold Bd.acos
  simp only [hp, hq, h, Res.ok_bind]
  rfl

example : (match Bd.asin goodExt ⟨9, 1⟩ 5 with | .ok d => round d 4 | _ => Dec.zero) = ⟨11198, 4⟩ := by decide +kernel
example : Bd.asin goodExt ⟨11, 1⟩ 5 = .panic := by decide +kernel

/-! ## C27: ln -/

/-- **C27** `ln` answers "no value" exactly on numbers that are not positive. -/
theorem C27_ln_domain (ext : BdExt) (x : Dec) (n : Int) : Bd.ln ext x n = .ok none ↔ x.val ≤ 0 := C28_ln_domain ext x n

/-- **C27** For every positive argument and every digit count from 1 to the loop guard, `ln` terminates and its error is at
most a series error plus the error of the scale factor `exp(±1/2)` for each of the at most `2.1·|ln x|` reductions. -/
theorem C27_ln_error (ext : BdExt) (x : Dec) (n : ℕ) (hx : 0 < x.val) (h1 : 1 ≤ n) (hn : 12 * n + 10 ≤ 30001)
    (hfuel : 3 * |Real.log x.val| + 2 ≤ ext.fuel) :
    ∃ d, Bd.ln ext x n = .ok (some d) ∧ |(d.val : ℝ) - Real.log x.val| ≤
      (1 / 20 / 10 ^ n + 2 / 10 ^ 99 + 1 / 100 ^ n * (96 * n + 83)) +
        5 * |Real.log x.val| * (if n < 3 then 1 / 100 else expBound 1 n (2 * n + 14)) :=
  ln_error ext x n hx hn h1 hfuel

theorem lnE_le (n : ℕ) (h3 : 3 ≤ n) (h97 : n ≤ 97) : lnE n ≤ 0.5 * (1 / 10 ^ n) := by
  unfold lnE
  have h1 := div_hundred_pow 96 83 0.4 n (lin_le_pow 96 83 3 n h3 (by norm_num) 0.4 (by norm_num) (by norm_num))
  have h4 : (2 : ℝ) / 10 ^ 99 ≤ 0.02 * (1 / 10 ^ n) := by
    have := ten_pow_le n 97 0.02 (by norm_num) h97
    calc (2 : ℝ) / 10 ^ 99 ≤ 0.02 / 10 ^ 97 := by norm_num
      _ ≤ _ := this
  have e : (1 : ℝ) / 20 / 10 ^ n = 1 / 20 * (1 / 10 ^ n) := by ring
  rw [e]
  have hp : (0 : ℝ) < 1 / 10 ^ n := by positivity
  generalize (1 : ℝ) / 10 ^ n = w at *
  linarith

theorem scaleE_lt (n : ℕ) (h3 : 3 ≤ n) (h97 : n ≤ 97) : scaleE n ≤ 1 / 10 ^ n := by
  unfold scaleE
  rw [if_neg (by omega)]
  exact (expBound_lt 1 n _ (by omega) (by omega) (by omega) h3).le

/-- **C27** For 3 to 97 digits the error is at most `(1 + 5·|ln x|)·10^-n`. -/
theorem C27_ln_accurate (ext : BdExt) (x : Dec) (n : ℕ) (hx : 0 < x.val) (h3 : 3 ≤ n) (h97 : n ≤ 97)
    (hfuel : 3 * |Real.log x.val| + 2 ≤ ext.fuel) :
    ∃ d, Bd.ln ext x n = .ok (some d) ∧ |(d.val : ℝ) - Real.log x.val| < (1 + 5 * |Real.log x.val|) * (1 / 10 ^ n) := by
  obtain ⟨d, h1, h2⟩ := ln_error ext x n hx (by omega) (by omega) hfuel
  refine ⟨d, h1, ?_⟩
  have h4 := lnE_le n h3 h97
  have h5 := scaleE_lt n h3 h97
  have hp : (0 : ℝ) < 1 / 10 ^ n := by positivity
  have h6 : 5 * |Real.log x.val| * scaleE n ≤ 5 * |Real.log x.val| * (1 / 10 ^ n) := by gcongr
  linarith

example : (match Bd.ln goodExt ⟨1000, 0⟩ 5 with | .ok (some d) => round d 4 | _ => Dec.zero) = ⟨69078, 4⟩ := by decide +kernel

/-- The fuel hypothesis is met by real inputs. -/
example : 3 * |Real.log ((⟨1000, 0⟩ : Dec).val : ℝ)| + 2 ≤ (goodExt.fuel : ℝ) := by
  have h1 : ((⟨1000, 0⟩ : Dec).val : ℝ) = 1000 := by norm_num [Dec.val]
  have h2 : (goodExt.fuel : ℝ) = 100 := by norm_num [goodExt, fuelExt]
  rw [h1, h2, abs_of_nonneg (Real.log_nonneg (by norm_num))]
  have h3 : Real.log 1000 ≤ 7 := by
    rw [Real.log_le_iff_le_exp (by norm_num)]
    have h4 := Real.exp_one_gt_d9
    have h5 : Real.exp 7 = Real.exp 1 ^ 7 := by rw [← Real.exp_nat_mul]; norm_num
    rw [h5]
    calc (1000 : ℝ) ≤ 2.7 ^ 7 := by norm_num
      _ ≤ _ := by gcongr; linarith
  linarith

/-- **C27** With zero digits the scale factor `exp(-1/2)` rounds to `1`, so the reduction never makes progress: `ln` of
any number from 3 on runs forever. -/
theorem C27_zero_digits_never_returns (ext : BdExt) (x : Dec) (hx : 3 ≤ x.val) : Bd.ln ext x 0 = .diverge := by
  have hlim : Bd.exp Dec.half 0 = .ok ⟨3, 0⟩ := by decide +kernel
  have hsc : Bd.exp (-Dec.half) 0 = .ok ⟨1, 0⟩ := by decide +kernel
  have hloop : ∀ fuel (y e : Dec), 3 ≤ y.val → lnDown ⟨3, 0⟩ ⟨1, 0⟩ Dec.half fuel y e = .diverge := by
    intro fuel
    induction fuel with
    | zero => intros; rfl
    | succ f ih =>
      intro y e hy
      rw [lnDown, if_pos]
      · apply ih
        rw [val_mul]
        have : (⟨1, 0⟩ : Dec).val = 1 := by norm_num [Dec.val]
        rw [this]; linarith
      · rw [le_iff]
        have : (⟨3, 0⟩ : Dec).val = 3 := by norm_num [Dec.val]
        rw [this]; exact hy
  unfold Bd.ln
  rw [if_neg, if_pos]
  · simp only [hlim, hsc, Res.ok_bind, hloop _ _ _ hx]
    rfl
  · rw [le_iff, val_one]; linarith
  · rw [Bool.or_eq_true, isZero_iff, isNegative_iff]
    rintro (h | h) <;> linarith

end Verif

import Verif.Props.IeeeHyperbolic
import Mathlib.Analysis.SpecialFunctions.Arsinh
import Mathlib.Analysis.SpecialFunctions.Arcosh
import Mathlib.Analysis.SpecialFunctions.Artanh

/-!
# C76: the inverse hyperbolic functions in float arithmetic
-/

namespace Verif
open RExpr

/-- How a relative error shows in a logarithm. -/
theorem log_ratio {t T θ : ℝ} (hT : 0 < T) (hθ : θ ≤ 1 / 2) (h : |t - T| ≤ θ * T) : 0 < t ∧ |Real.log t - Real.log T| ≤ 2 * θ := by
  have h1 := abs_le.1 h
  have hθ0 : 0 ≤ θ := by
    have := (abs_nonneg _).trans h
    by_contra hc
    push Not at hc
    nlinarith
  have ht2 : T / 2 ≤ t := by nlinarith
  have ht : 0 < t := by linarith
  refine ⟨ht, ?_⟩
  rw [← Real.log_div ht.ne' hT.ne', abs_le]
  have hq : 0 < t / T := by positivity
  constructor
  · refine le_trans ?_ (Real.one_sub_inv_le_log_of_pos hq)
    rw [inv_div]
    have : T / t ≤ 1 + 2 * θ := by
      rw [div_le_iff₀ ht]; nlinarith
    linarith
  · refine (Real.log_le_sub_one_of_pos hq).trans ?_
    have : t / T ≤ 1 + θ := by rw [div_le_iff₀ hT]; nlinarith
    linarith

theorem sqrt_close {q m : ℝ} (hq : 0 ≤ q) (hm : 0 ≤ m) : (√q - √m) ^ 2 ≤ |q - m| ∧ |√q - √m| * √m ≤ |q - m| := by
  have h1 : |q - m| = |√q - √m| * (√q + √m) := by
    rw [← abs_of_nonneg (add_nonneg (Real.sqrt_nonneg q) (Real.sqrt_nonneg m)), ← abs_mul]
    congr 1
    have := Real.mul_self_sqrt hq
    have := Real.mul_self_sqrt hm
    nlinarith
  have h2 := Real.sqrt_nonneg q
  have h3 := Real.sqrt_nonneg m
  have h4 := abs_nonneg (√q - √m)
  rw [h1]
  constructor
  · rw [← sq_abs, sq]
    refine mul_le_mul_of_nonneg_left ?_ h4
    rw [abs_le]; constructor <;> linarith
  · nlinarith

/-- The square root inside `asinh`. -/
theorem asinh_sqrt {x p q s ε τ : ℝ} (hε : 0 < ε) (hε1 : ε ≤ 1 / 10000) (hτ : τ ≤ 1)
    (hp : |p - x * x| ≤ ε * (|x * x| + τ)) (hq0 : 0 ≤ q) (hq : |q - (p + 1)| ≤ ε * |p + 1|) (hs : |s - √q| ≤ ε * √q) :
    |s - √(1 + x ^ 2)| ≤ 16 / 5 * ε * √(1 + x ^ 2) := by
  have hx := mul_self_nonneg x
  rw [abs_of_nonneg hx] at hp
  have hm : 0 ≤ 1 + x ^ 2 := by positivity
  have hx2 : x * x = x ^ 2 := by ring
  rw [hx2] at hp
  obtain ⟨m, hmd⟩ : ∃ m, m = 1 + x ^ 2 := ⟨_, rfl⟩
  rw [← hmd] at hm ⊢
  have hp1 : |p + 1 - m| ≤ ε * m := by
    rw [show p + 1 - m = p - x ^ 2 by rw [hmd]; ring]
    refine hp.trans (mul_le_mul_of_nonneg_left (by linarith) hε.le)
  have h1 : |p + 1| ≤ (1 + ε) * m := by
    have := abs_sub_abs_le_abs_sub (p + 1) m
    rw [abs_of_nonneg hm] at this; linarith
  have h2 : |q - m| ≤ 21 / 10 * ε * m := by
    have h3 := abs_add_le (q - (p + 1)) (p + 1 - m)
    rw [sub_add_sub_cancel] at h3
    have h4 := mul_le_mul_of_nonneg_left h1 hε.le
    have h5 : ε * m * ε ≤ ε * m * (1 / 10000) := mul_le_mul_of_nonneg_left hε1 (by positivity)
    nlinarith
  obtain ⟨-, h3⟩ := sqrt_close hq0 hm
  have hS : 1 ≤ √m := by rw [Real.one_le_sqrt, hmd]; nlinarith
  have hSS := Real.mul_self_sqrt hm
  have h4 : |√q - √m| ≤ 21 / 10 * ε * √m := by
    by_contra hc
    push Not at hc
    have := mul_lt_mul_of_pos_right hc (by linarith : 0 < √m)
    nlinarith
  have h5 := abs_add_le (s - √q) (√q - √m)
  rw [sub_add_sub_cancel] at h5
  have h6 : √q ≤ √m + 21 / 10 * ε * √m := by linarith [(abs_le.1 h4).2]
  have h7 := mul_le_mul_of_nonneg_left h6 hε.le
  have h8 : ε * √m * ε ≤ ε * √m * (1 / 10000) := mul_le_mul_of_nonneg_left hε1 (by positivity)
  nlinarith

theorem asinh_sum_pos {x s t S ε τ : ℝ} (hε : 0 < ε) (hε1 : ε ≤ 1 / 10000) (hτ : τ ≤ 1) (hx : 0 ≤ x) (hS : 1 ≤ S) (hs : |s - S| ≤ 16 / 5 * ε * S)
    (ht : τ ≤ |x + s| → |t - (x + s)| ≤ ε * |x + s|) (hτ2 : τ ≤ 1 / 2) : |t - (x + S)| ≤ 5 * ε * (x + S) := by
  have h1 := abs_le.1 hs
  have h2 : ε * S ≤ 1 / 10000 * S := mul_le_mul_of_nonneg_right hε1 (by linarith)
  have h3 : 0 ≤ x + s := by linarith
  rw [abs_of_nonneg h3] at ht
  have h4 := ht (by linarith)
  have h5 := abs_add_le (t - (x + s)) (x + s - (x + S))
  rw [sub_add_sub_cancel, show x + s - (x + S) = s - S by ring] at h5
  have h6 : ε * (x + s) ≤ ε * (11 / 10 * (x + S)) := mul_le_mul_of_nonneg_left (by linarith) hε.le
  have h7 : ε * S ≤ ε * (x + S) := mul_le_mul_of_nonneg_left (by linarith) hε.le
  linarith

theorem asinh_sum_neg {x s t S ε τ : ℝ} (hε : 0 < ε) (hε1 : ε ≤ 1 / 10000) (hτ : τ ≤ ε) (hx : x < 0) (hS : 1 ≤ S) (hxS : S * S = 1 + x ^ 2) (hs : |s - S| ≤ 16 / 5 * ε * S)
    (ht : |t - (x + s)| ≤ ε * (|x + s| + τ)) (hw : ε * (S - x) ^ 2 ≤ 1 / 16) : |t - (x + S)| ≤ 6 * ε * (S - x) ^ 2 * (x + S) ∧ 8 * ε ≤ x + S := by
  obtain ⟨W, hW⟩ : ∃ W, W = S - x := ⟨_, rfl⟩
  obtain ⟨T, hT⟩ : ∃ T, T = x + S := ⟨_, rfl⟩
  have hWT : W * T = 1 := by rw [hW, hT]; nlinarith
  have hW1 : 1 ≤ W := by linarith
  have hT0 : 0 < T := by
    by_contra hc
    push Not at hc
    nlinarith
  have hSW : S ≤ W := by linarith
  rw [← hW] at hw ⊢
  rw [← hT]
  have h5 := abs_add_le (t - (x + s)) (x + s - T)
  rw [sub_add_sub_cancel] at h5
  have h6 : |x + s - T| ≤ 16 / 5 * ε * S := by rw [show x + s - T = s - S by rw [hT]; ring]; exact hs
  have h7 : |x + s| ≤ T + 16 / 5 * ε * S := by
    have := abs_sub_abs_le_abs_sub (x + s) T
    rw [abs_of_pos hT0] at this; linarith
  have e1 : W ^ 2 * T = W := by rw [sq, mul_assoc, hWT, mul_one]
  have e2 : 6 * ε * W ^ 2 * T = 6 * ε * W := by rw [mul_assoc, e1]
  have hT1 : T ≤ W := by nlinarith
  rw [e2]
  constructor
  · have h8 : ε * (|x + s| + τ) ≤ ε * (W + 16 / 5 * ε * S + ε) := mul_le_mul_of_nonneg_left (by linarith) hε.le
    have h9 : ε * S ≤ ε * W := mul_le_mul_of_nonneg_left hSW hε.le
    have h10 : ε * (ε * S) ≤ 1 / 10000 * (ε * S) := mul_le_mul_of_nonneg_right hε1 (by positivity)
    have h11 : ε * ε ≤ 1 / 10000 * ε := mul_le_mul_of_nonneg_right hε1 hε.le
    have h12 : ε ≤ ε * W := by nlinarith
    nlinarith
  · have h8 : ε * W ≤ 1 / 16 := by nlinarith
    have h9 : ε * W * T = ε := by rw [mul_assoc, hWT, mul_one]
    nlinarith

/-! ## Exact results of rounding -/

namespace FloatFmt
variable {F : FloatFmt}

/-- Floats above a power of two are multiples of its last place. -/
theorem Repr.multiple_of {r : ℝ} {E : ℤ} (hr : F.Repr r) (h : (2 : ℝ) ^ E ≤ |r|) : ∃ n : ℤ, r = n * (2 : ℝ) ^ (E - F.mant) := by
  obtain ⟨k, hk, -⟩ := hr.multiple
  have h0 : 0 < |r| := lt_of_lt_of_le (by positivity) h
  have hE : E - F.mant ≤ F.lastPlace r := by
    have := (Int.zpow_le_iff_le_log (b := 2) (by norm_num) h0 (x := E)).1 (by exact_mod_cast h)
    unfold lastPlace; omega
  obtain ⟨j, hj⟩ := Int.eq_ofNat_of_zero_le (sub_nonneg.2 hE)
  refine ⟨k * 2 ^ j, ?_⟩
  rw [show F.lastPlace r = (j : ℤ) + (E - F.mant) by omega, zpow_add₀ (by norm_num), zpow_natCast] at hk
  rw [hk]; push_cast; ring

/-- What lies within half a last place of a float rounds to it. -/
theorem rnd_eq {r y : ℝ} {E : ℤ} (hr : F.Repr r) (h1 : (2 : ℝ) ^ E ≤ r) (hE : 1 - (F.bias : ℤ) - F.mant ≤ E) (hy : |y - r| < (2 : ℝ) ^ (E - F.mant) / 2) (hl : (2 : ℝ) ^ E ≤ y) : F.rnd y = r := by
  have hz := rnd_repr (F := F) y
  have hz1 : (2 : ℝ) ^ E ≤ F.rnd y := le_rnd (repr_zpow hE) hl
  have hn := rnd_nearest (F := F) y hr
  have hp : (0 : ℝ) < 2 ^ E := by positivity
  obtain ⟨a, ha⟩ := hz.multiple_of (by rw [abs_of_pos (by linarith)]; exact hz1)
  obtain ⟨b, hb⟩ := hr.multiple_of (by rw [abs_of_pos (by linarith)]; exact h1)
  have h2 : |F.rnd y - r| < (2 : ℝ) ^ (E - F.mant) := by
    have := abs_add_le (F.rnd y - y) (y - r)
    rw [sub_add_sub_cancel] at this
    rw [abs_sub_comm r y] at hn
    linarith
  have hq : (0 : ℝ) < (2 : ℝ) ^ (E - F.mant) := by positivity
  rw [ha, hb, ← sub_mul, abs_mul, abs_of_pos hq] at h2
  have h3 : |((a : ℝ) - b)| < 1 := by
    by_contra hc
    push Not at hc
    nlinarith
  have h4 : |a - b| < 1 := by exact_mod_cast h3
  rw [ha, hb, show a = b by have := abs_lt.1 h4; omega]

theorem eps_zpow (E : ℤ) : (2 : ℝ) ^ (E - F.mant) / 2 = F.eps * 2 ^ E := by
  rw [eps, ← zpow_add₀ (by norm_num), show -(F.mant : ℤ) - 1 + E = E - F.mant - 1 by ring, zpow_sub₀ (by norm_num) (E - F.mant), zpow_one]

/-- Error of rounding a number of known size. -/
theorem rnd_half_place {y : ℝ} {E : ℤ} (h1 : (2 : ℝ) ^ E ≤ y) (h2 : y < (2 : ℝ) ^ (E + 1)) (hE : 1 - (F.bias : ℤ) ≤ E) : |F.rnd y - y| ≤ F.eps * 2 ^ E := by
  have h0 : 0 < y := lt_of_lt_of_le (by positivity) h1
  have hlog : Int.log 2 |y| = E := by
    rw [abs_of_pos h0]
    refine le_antisymm ?_ ((Int.zpow_le_iff_le_log (b := 2) (by norm_num) h0).1 (by exact_mod_cast h1))
    have := (Int.lt_zpow_iff_log_lt (b := 2) (by norm_num) h0 (x := E + 1)).1 (by exact_mod_cast h2)
    omega
  refine (rnd_near y).trans (le_of_eq ?_)
  rw [lastPlace, hlog, max_eq_left hE, eps_zpow]

/-- The square root of the square of a float is the float. -/
theorem sqrt_square (hF : F.Wide) {x : ℝ} (hx : F.Repr x) (h0 : 0 < x) (h1 : F.tiny ≤ x ^ 2) : F.rnd √(F.rnd (x * x)) = x := by
  obtain ⟨E, hEd⟩ : ∃ E, E = Int.log 2 x := ⟨_, rfl⟩
  have hE1 : (2 : ℝ) ^ E ≤ x := by rw [hEd]; exact_mod_cast Int.zpow_log_le_self (b := 2) (by norm_num) h0
  have hE2 : x < (2 : ℝ) ^ (E + 1) := by rw [hEd]; exact_mod_cast Int.lt_zpow_succ_log_self (b := 2) (by norm_num) x
  have hp : (0 : ℝ) < 2 ^ E := by positivity
  have hs : (2 : ℝ) ^ (2 * E) = 2 ^ E * 2 ^ E := by rw [← zpow_add₀ (by norm_num)]; congr 1; ring
  have hs1 : (2 : ℝ) ^ (2 * E + 1) = 2 * (2 ^ E * 2 ^ E) := by rw [zpow_add₀ (by norm_num), hs, zpow_one]; ring
  have hs2 : (2 : ℝ) ^ (2 * E + 1 + 1) = 4 * (2 ^ E * 2 ^ E) := by rw [zpow_add₀ (by norm_num), hs1, zpow_one]; ring
  rw [zpow_add₀ (by norm_num), zpow_one] at hE2
  have hE3 : -(F.bias : ℤ) ≤ 2 * E := by
    by_contra hc
    push Not at hc
    have : (2 : ℝ) ^ (2 * E + 1 + 1) ≤ F.tiny := by
      unfold tiny; exact zpow_le_zpow_right₀ (by norm_num) (by omega)
    rw [hs2] at this
    nlinarith
  have hb := hF.bias_ge.2
  have hε := eps_pos (F := F)
  have hxx : 2 ^ E * 2 ^ E ≤ x * x := by nlinarith
  have hpl : 2 ^ E * 2 ^ E ≤ F.rnd (x * x) := by
    rw [← hs] at hxx ⊢
    exact le_rnd (repr_zpow (by have := hF.mant; omega)) hxx
  have hq0 : 0 ≤ F.rnd (x * x) := le_trans (by positivity) hpl
  have hsl : 2 ^ E ≤ √(F.rnd (x * x)) := by rw [Real.le_sqrt' hp, sq]; exact hpl
  refine rnd_eq hx hE1 (by omega) ?_ hsl
  rw [eps_zpow]
  obtain ⟨r, hr⟩ : ∃ r, r = √(F.rnd (x * x)) := ⟨_, rfl⟩
  rw [← hr] at hsl ⊢
  have hrr : r * r = F.rnd (x * x) := by rw [hr]; exact Real.mul_self_sqrt hq0
  have hfac : |r - x| * (r + x) = |F.rnd (x * x) - x * x| := by
    rw [← hrr, ← abs_of_pos (by linarith : 0 < r + x), ← abs_mul]; congr 1; ring
  rcases lt_or_ge (x * x) (2 * (2 ^ E * 2 ^ E)) with h2 | h2
  · rcases le_or_gt (1 - (F.bias : ℤ)) (2 * E) with h3 | h3
    · have h4 := rnd_half_place (F := F) (y := x * x) (E := 2 * E) (by rw [hs]; exact hxx) (by rw [hs1]; exact h2) h3
      rw [← hfac, hs] at h4
      by_contra hc
      push Not at hc
      have := mul_le_mul hc (by linarith : 2 * 2 ^ E ≤ r + x) (by positivity) (abs_nonneg _)
      have : 0 < F.eps * (2 ^ E * 2 ^ E) := by positivity
      nlinarith
    · have : (2 : ℝ) ^ (2 * E + 1) ≤ F.tiny := by unfold tiny; exact zpow_le_zpow_right₀ (by norm_num) (by omega)
      rw [hs1] at this
      nlinarith
  · have h3 : 1 - (F.bias : ℤ) ≤ 2 * E + 1 := by omega
    have h4 := rnd_half_place (F := F) (y := x * x) (E := 2 * E + 1) (by rw [hs1]; exact h2) (by rw [hs2]; nlinarith) h3
    rw [← hfac, hs1] at h4
    have h5 : 7 / 5 * 2 ^ E ≤ x := by
      by_contra hc
      push Not at hc
      nlinarith
    have h6 : 2 * (2 ^ E * 2 ^ E) ≤ F.rnd (x * x) := by
      rw [← hs1] at h2 ⊢
      exact le_rnd (repr_zpow (by have := hF.mant; omega)) h2
    have h7 : 7 / 5 * 2 ^ E ≤ r := by
      by_contra hc
      push Not at hc
      nlinarith
    by_contra hc
    push Not at hc
    have := mul_le_mul hc (by linarith : 14 / 5 * 2 ^ E ≤ r + x) (by positivity) (abs_nonneg _)
    have : 0 < F.eps * (2 ^ E * 2 ^ E) := by positivity
    nlinarith

end FloatFmt

section
variable {ext : BdExt} {fx : FloatExt} {b32 : Bool} {P : Gen.Parts} {calls : String → List RV → RV} {g : Name → RV} {u w : ℝ}

/-- The generated `ln` of a number near `T`. -/
theorem LibraryOk.ln_near (h : LibraryOk ext fx b32 P calls g u w) {t T θ : ℝ} (ht : (fmtOf b32).Repr t) (hT : 2 * (fmtOf b32).tiny ≤ T) (hT2 : T ≤ 2 ^ (fmtOf b32).bias)
    (hθ : θ ≤ 1 / 2) (hd : |t - T| ≤ θ * T) :
    ∃ y, calls "ln" [.f t] = .f y ∧ (fmtOf b32).Repr y ∧ |y - Real.log T| ≤ 4 / 5 * log2Bound b32 u w + 4 * (fmtOf b32).eps * (|Real.log T| + 1) + 201 / 100 * θ := by
  have hτ0 := FloatFmt.tiny_pos (F := fmtOf b32)
  have hε := FloatFmt.eps_pos (F := fmtOf b32)
  have heps := eps_fmtOf b32
  norm_num at heps
  obtain ⟨h0, hl⟩ := log_ratio (by linarith) hθ hd
  have h1 := abs_le.1 hd
  have hθT : θ * T ≤ 1 / 2 * T := mul_le_mul_of_nonneg_right hθ (by linarith)
  have hpow : (0 : ℝ) < 2 ^ (fmtOf b32).bias := by positivity
  obtain ⟨y, hy, hr, he⟩ := h.ln.val t ht (by linarith) (by rw [pow_succ]; linarith)
  rw [logb_mul_log] at he
  refine ⟨y, hy, hr, ?_⟩
  have h2 := abs_add_le (y - Real.log t) (Real.log t - Real.log T)
  rw [sub_add_sub_cancel] at h2
  have h3 := abs_sub_abs_le_abs_sub (Real.log t) (Real.log T)
  have h4 : (fmtOf b32).eps * |Real.log t| ≤ (fmtOf b32).eps * (|Real.log T| + 2 * θ) := mul_le_mul_of_nonneg_left (by linarith) hε.le
  have hθ0 : 0 ≤ θ := by
    have := (abs_nonneg _).trans hl; linarith
  have h5 : (fmtOf b32).eps * θ ≤ 1 / 16777216 * θ := mul_le_mul_of_nonneg_right heps hθ0
  linarith

theorem LibraryOk.asinh_run (h : LibraryOk ext fx b32 P calls g u w) (x : ℝ) :
    calls "asinh" [.f x] = calls "ln" [binIE (fmtOf b32) .add (.f x) (methIE (fmtOf b32) "sqrt" (binIE (fmtOf b32) .add ((fmtOf b32).rne (x * x)) (.f 1)) [])] := by
  rw [show calls "asinh" [.f x] = _ from h.fn "asinh" (by decide +kernel) rfl [.f x]]
  simp only [Gen.asinh, ofFty_apply, List.map, bindParams]
  simp [numIE_1 (FloatFmt.wide_fmtOf b32)]

theorem repr_one (b32 : Bool) : (fmtOf b32).Repr 1 := by
  simpa using FloatFmt.repr_int (FloatFmt.wide_fmtOf b32).ok (k := 1) (by rw [abs_one]; exact one_le_pow₀ (by norm_num))

theorem repr_two_pow (b32 : Bool) (n : ℕ) : (fmtOf b32).Repr (2 ^ n) := by
  have := FloatFmt.repr_zpow (F := fmtOf b32) (e := (n : ℤ)) (by have := (FloatFmt.wide_fmtOf b32).bias_ge.2; omega)
  rwa [zpow_natCast] at this

theorem rnd_rel_one {x : ℝ} (h : 1 / 2 ≤ |x|) : |(fmtOf b32).rnd x - x| ≤ (fmtOf b32).eps * |x| :=
  FloatFmt.rnd_rel (((FloatFmt.tiny_le (FloatFmt.wide_fmtOf b32)).trans (by norm_num)).trans h)

/-- The argument of `ln` in `asinh`. -/
theorem LibraryOk.asinh_arg (h : LibraryOk ext fx b32 P calls g u w) {x : ℝ} (hx : x ^ 2 ≤ 2 ^ ((fmtOf b32).bias - 1)) :
    ∃ s : ℝ, calls "asinh" [.f x] = calls "ln" [.f ((fmtOf b32).rnd (x + s))] ∧ |s - √(1 + x ^ 2)| ≤ 16 / 5 * (fmtOf b32).eps * √(1 + x ^ 2) := by
  have hF := FloatFmt.wide_fmtOf b32
  have hε := FloatFmt.eps_pos (F := fmtOf b32)
  have heps := eps_fmtOf b32
  norm_num at heps
  have hτ : (fmtOf b32).tiny ≤ 1 := (FloatFmt.tiny_le hF).trans (by norm_num)
  have hpow : (2 : ℝ) ^ (fmtOf b32).bias = 2 * 2 ^ ((fmtOf b32).bias - 1) := by
    rw [← pow_succ', Nat.sub_add_cancel (by cases b32 <;> decide)]
  have hbig : (2 : ℝ) ^ 100 ≤ 2 ^ ((fmtOf b32).bias - 1) := pow_le_pow_right₀ (by norm_num) (by cases b32 <;> decide)
  norm_num at hbig
  have hx0 := mul_self_nonneg x
  have hxx : x * x = x ^ 2 := by ring
  have hp := FloatFmt.rnd_err (F := fmtOf b32) (x * x)
  have hp0 : 0 ≤ (fmtOf b32).rnd (x * x) := FloatFmt.le_rnd FloatFmt.repr_zero hx0
  have hp1 : (fmtOf b32).rnd (x * x) ≤ 2 ^ ((fmtOf b32).bias - 1) := FloatFmt.rnd_le (repr_two_pow b32 _) (by rw [hxx]; exact hx)
  rw [h.asinh_run, FloatFmt.rne_f hF.ok (x := x * x) (by rw [abs_of_nonneg hx0]; linarith), binIE_add]
  generalize (fmtOf b32).rnd (x * x) = p at *
  rw [FloatFmt.rne_f hF.ok (x := p + 1) (by rw [abs_of_nonneg (by linarith)]; linarith)]
  have hq := rnd_rel_one (b32 := b32) (x := p + 1) (by rw [abs_of_nonneg (by linarith)]; linarith)
  have hq1 : 1 ≤ (fmtOf b32).rnd (p + 1) := FloatFmt.le_rnd (repr_one b32) (by linarith)
  have hq2 : (fmtOf b32).rnd (p + 1) ≤ 2 ^ (fmtOf b32).bias := FloatFmt.rnd_le (repr_two_pow b32 _) (by linarith)
  generalize (fmtOf b32).rnd (p + 1) = q at *
  have hsq : 1 ≤ √q := by rw [Real.one_le_sqrt]; exact hq1
  have hsq2 : √q ≤ q := by
    have := Real.mul_self_sqrt (by linarith : 0 ≤ q); nlinarith
  rw [methIE_sqrt _ (by linarith), FloatFmt.rne_f hF.ok (by rw [abs_of_nonneg (by linarith)]; linarith), binIE_add]
  have hs := rnd_rel_one (b32 := b32) (x := √q) (by rw [abs_of_nonneg (by linarith)]; linarith)
  rw [abs_of_pos (by linarith : 0 < √q)] at hs
  have hS := asinh_sqrt hε (by linarith) hτ hp (by linarith) hq hs
  generalize (fmtOf b32).rnd (√q) = s at *
  refine ⟨s, ?_, hS⟩
  rw [FloatFmt.rne_f hF.ok]
  have h1 := abs_le.1 hS
  have hSS := Real.mul_self_sqrt (by positivity : 0 ≤ 1 + x ^ 2)
  have hS1 : 1 ≤ √(1 + x ^ 2) := by rw [Real.one_le_sqrt]; nlinarith
  generalize √(1 + x ^ 2) = S at *
  have h2 : (fmtOf b32).eps * S ≤ 1 / 16777216 * S := mul_le_mul_of_nonneg_right heps (by linarith)
  have h3 : S ≤ x ^ 2 / 4 + 5 := by nlinarith
  have h4 : |x| ≤ x ^ 2 / 4 + 5 := by rw [← sq_abs]; nlinarith [sq_nonneg (|x| / 2 - 1)]
  refine (abs_add_le _ _).trans ?_
  rw [abs_of_nonneg (by linarith : 0 ≤ s)]
  nlinarith

/-- **C76** Generated `asinh` in float arithmetic, of positive numbers whose square does not overflow. -/
theorem C76_asinh_partial (h : LibraryOk ext fx b32 P calls g u w) {x : ℝ} (h0 : 0 ≤ x) (hx : x ^ 2 ≤ 2 ^ ((fmtOf b32).bias - 1)) :
    ∃ y, calls "asinh" [.f x] = .f y ∧ |y - Real.arsinh x| ≤ 4 / 5 * log2Bound b32 u w + (fmtOf b32).eps * (4 * Real.arsinh x + 15) := by
  have hF := FloatFmt.wide_fmtOf b32
  have hε := FloatFmt.eps_pos (F := fmtOf b32)
  have heps := eps_fmtOf b32
  norm_num at heps
  have hτ := tiny_eps b32
  have hτ0 := FloatFmt.tiny_pos (F := fmtOf b32)
  have hpow : (2 : ℝ) ^ (fmtOf b32).bias = 2 * 2 ^ ((fmtOf b32).bias - 1) := by
    rw [← pow_succ', Nat.sub_add_cancel (by cases b32 <;> decide)]
  have hbig : (2 : ℝ) ^ 100 ≤ 2 ^ ((fmtOf b32).bias - 1) := pow_le_pow_right₀ (by norm_num) (by cases b32 <;> decide)
  norm_num at hbig
  obtain ⟨s, hs, he⟩ := h.asinh_arg hx
  have hSS := Real.mul_self_sqrt (by positivity : 0 ≤ 1 + x ^ 2)
  have hS1 : 1 ≤ √(1 + x ^ 2) := by rw [Real.one_le_sqrt]; nlinarith
  have hd := asinh_sum_pos hε (by linarith) (by linarith) h0 hS1 he (fun hh => FloatFmt.rnd_rel hh) (by linarith : (fmtOf b32).tiny ≤ 1 / 2)
  obtain ⟨y, hy, -, hye⟩ := h.ln_near (FloatFmt.rnd_repr _) (by linarith)
    (by nlinarith [sq_nonneg (x / 2 - 1), sq_nonneg (√(1 + x ^ 2) / 2 - 1)]) (by linarith) hd
  refine ⟨y, hs.trans hy, ?_⟩
  rw [show Real.log (x + √(1 + x ^ 2)) = Real.arsinh x from rfl, abs_of_nonneg (Real.arsinh_nonneg_iff.2 h0)] at hye
  linarith

/-- **C76** Generated `asinh` of negative numbers: the sum inside cancels, so the error grows with the square of the argument. -/
theorem C76_asinh_neg_partial (h : LibraryOk ext fx b32 P calls g u w) {x : ℝ} (h0 : x < 0) (hw : (fmtOf b32).eps * (√(1 + x ^ 2) - x) ^ 2 ≤ 1 / 16) :
    ∃ y, calls "asinh" [.f x] = .f y ∧ |y - Real.arsinh x| ≤ 4 / 5 * log2Bound b32 u w + (fmtOf b32).eps * (4 * |Real.arsinh x| + 4 + 13 * (√(1 + x ^ 2) - x) ^ 2) := by
  have hF := FloatFmt.wide_fmtOf b32
  have hε := FloatFmt.eps_pos (F := fmtOf b32)
  have heps := eps_fmtOf b32
  norm_num at heps
  have hτ := tiny_eps b32
  have hτ0 := FloatFmt.tiny_pos (F := fmtOf b32)
  have hpow : (2 : ℝ) ^ (fmtOf b32).bias = 2 * 2 ^ ((fmtOf b32).bias - 1) := by
    rw [← pow_succ', Nat.sub_add_cancel (by cases b32 <;> decide)]
  have hbig : (2 : ℝ) ^ 100 ≤ 2 ^ ((fmtOf b32).bias - 1) := pow_le_pow_right₀ (by norm_num) (by cases b32 <;> decide)
  norm_num at hbig
  have hSS := Real.mul_self_sqrt (by positivity : 0 ≤ 1 + x ^ 2)
  have hS1 : 1 ≤ √(1 + x ^ 2) := by rw [Real.one_le_sqrt]; nlinarith
  have hw2 : (√(1 + x ^ 2) - x) ^ 2 ≤ 2 ^ 53 := by
    have h8 := mul_le_mul_of_nonneg_right (eps_ge b32) (sq_nonneg (√(1 + x ^ 2) - x))
    generalize (√(1 + x ^ 2) - x) ^ 2 = z at *
    norm_num at h8 ⊢
    linarith
  have hx2 : x ^ 2 ≤ 2 ^ 53 := le_trans (by nlinarith) hw2
  obtain ⟨s, hs, he⟩ := h.asinh_arg (x := x) (by norm_num at hx2; linarith)
  obtain ⟨hd, hlow⟩ := asinh_sum_neg hε (by linarith) (by linarith) h0 hS1 (by rw [hSS]) he (FloatFmt.rnd_err (F := fmtOf b32) (x + s)) hw
  have hS2 : √(1 + x ^ 2) ≤ 1 + x ^ 2 := by nlinarith
  obtain ⟨y, hy, -, hye⟩ := h.ln_near (FloatFmt.rnd_repr _) (by linarith) (by norm_num at hx2; linarith) (by linarith) hd
  refine ⟨y, hs.trans hy, ?_⟩
  rw [show Real.log (x + √(1 + x ^ 2)) = Real.arsinh x from rfl] at hye
  nlinarith [mul_nonneg hε.le (sq_nonneg (√(1 + x ^ 2) - x))]

/-- **C76** Generated `asinh` of every negative number with a large square is minus infinity. -/
theorem C76_asinh_wrong (h : LibraryOk ext fx b32 P calls g u w) {x : ℝ} (hx : (fmtOf b32).Repr x) (h0 : x < 0) (h1 : 2 ^ ((fmtOf b32).mant + 2) ≤ x ^ 2) (h2 : x ^ 2 ≤ 2 ^ ((fmtOf b32).bias - 1)) :
    calls "asinh" [.f x] = .inf true := by
  have hF := FloatFmt.wide_fmtOf b32
  have hτ : (fmtOf b32).tiny ≤ 1 := (FloatFmt.tiny_le hF).trans (by norm_num)
  have hτ0 := FloatFmt.tiny_pos (F := fmtOf b32)
  have hpow : (2 : ℝ) ^ (fmtOf b32).bias = 2 * 2 ^ ((fmtOf b32).bias - 1) := by
    rw [← pow_succ', Nat.sub_add_cancel (by cases b32 <;> decide)]
  have hbig : (2 : ℝ) ^ 100 ≤ 2 ^ ((fmtOf b32).bias - 1) := pow_le_pow_right₀ (by norm_num) (by cases b32 <;> decide)
  norm_num at hbig
  have hxx : x * x = x ^ 2 := by ring
  have hx0 := mul_self_nonneg x
  have hbig2 : (1 : ℝ) ≤ 2 ^ ((fmtOf b32).mant + 2) := one_le_pow₀ (by norm_num)
  have hsq := FloatFmt.sqrt_square hF hx.neg (by linarith) (by rw [neg_sq]; linarith)
  rw [neg_mul_neg] at hsq
  have hp1 : (fmtOf b32).rnd (x * x) ≤ 2 ^ ((fmtOf b32).bias - 1) := FloatFmt.rnd_le (repr_two_pow b32 _) (by rw [hxx]; exact h2)
  have hp0 : 2 ^ ((fmtOf b32).mant + 2) ≤ (fmtOf b32).rnd (x * x) := FloatFmt.le_rnd (repr_two_pow b32 _) (by rw [hxx]; exact h1)
  have hpr := FloatFmt.rnd_repr (F := fmtOf b32) (x * x)
  rw [h.asinh_run, FloatFmt.rne_f hF.ok (x := x * x) (by rw [abs_of_nonneg hx0]; linarith), binIE_add]
  generalize (fmtOf b32).rnd (x * x) = p at *
  have hp00 : 0 < p := by linarith
  have hq : (fmtOf b32).rnd (p + 1) = p := by
    obtain ⟨E, hEd⟩ : ∃ E, E = Int.log 2 p := ⟨_, rfl⟩
    have hE1 : (2 : ℝ) ^ E ≤ p := by rw [hEd]; exact_mod_cast Int.zpow_log_le_self (b := 2) (by norm_num) hp00
    have hE2 : ((fmtOf b32).mant + 2 : ℤ) ≤ E := by
      rw [hEd]
      refine (Int.zpow_le_iff_le_log (b := 2) (by norm_num) hp00).1 ?_
      exact_mod_cast hp0
    refine FloatFmt.rnd_eq hpr hE1 (by have := hF.bias_ge.2; omega) ?_ (by linarith)
    rw [add_sub_cancel_left, abs_one]
    have : (2 : ℝ) ^ (2 : ℤ) ≤ 2 ^ (E - (fmtOf b32).mant) := zpow_le_zpow_right₀ (by norm_num) (by omega)
    norm_num at this
    linarith
  rw [FloatFmt.rne_f hF.ok (x := p + 1) (by rw [abs_of_nonneg (by linarith)]; linarith), hq, methIE_sqrt _ hp00.le]
  have hs2 : √p ≤ p := by
    have := Real.mul_self_sqrt hp00.le
    have : 1 ≤ √p := by rw [Real.one_le_sqrt]; linarith
    nlinarith
  rw [FloatFmt.rne_f hF.ok (x := √p) (by rw [abs_of_nonneg (Real.sqrt_nonneg _)]; linarith), hsq, binIE_add, add_neg_cancel, FloatFmt.rne_repr FloatFmt.repr_zero (by simp), h.ln.small 0 hτ0,
    if_neg (lt_irrefl _)]

theorem rne_over {x : ℝ} (h : 2 ^ ((fmtOf b32).bias + 1) ≤ x) : (fmtOf b32).rne x = .inf false := by
  have h1 : 2 ^ ((fmtOf b32).bias + 1) ≤ (fmtOf b32).rnd x := FloatFmt.le_rnd (repr_two_pow b32 _) h
  have hp : (0 : ℝ) < 2 ^ ((fmtOf b32).bias + 1) := by positivity
  unfold FloatFmt.rne
  rw [if_neg (by rw [abs_of_pos (by linarith)]; linarith), decide_eq_false (by linarith)]

/-- **C76** Generated `asinh` of every number whose square overflows, of either sign, is the same positive number. -/
theorem C76_asinh_overflow (h : LibraryOk ext fx b32 P calls g u w) {x : ℝ} (hx : 2 ^ ((fmtOf b32).bias + 1) ≤ x ^ 2) : calls "asinh" [.f x] = calls "ln" [.inf false] ∧
    ∃ y, calls "asinh" [.f x] = .f y ∧ |y - ((fmtOf b32).bias + 1) * Real.log 2| ≤ 4 / 5 * log2Bound b32 u w + 4 * (fmtOf b32).eps * (((fmtOf b32).bias + 1) * Real.log 2 + 1) := by
  have h1 : calls "asinh" [.f x] = calls "ln" [.inf false] := by
    rw [h.asinh_run, rne_over (by rw [← sq]; exact hx)]
    simp [binIE, addIE, methIE]
  rw [h1]
  exact ⟨rfl, h.ln.inf⟩

/-! ## `acosh` -/

theorem LibraryOk.acosh_run (h : LibraryOk ext fx b32 P calls g u w) {x : ℝ} (hx : 1 ≤ x) :
    calls "acosh" [.f x] = calls "ln" [binIE (fmtOf b32) .add (.f x) (methIE (fmtOf b32) "sqrt" (binIE (fmtOf b32) .sub ((fmtOf b32).rne (x * x)) (.f 1)) [])] := by
  rw [show calls "acosh" [.f x] = _ from h.fn "acosh" (by decide +kernel) rfl [.f x]]
  simp only [Gen.acosh, ofFty_apply, List.map, bindParams]
  simp [numIE_1 (FloatFmt.wide_fmtOf b32), hx]

/-- **C76** Generated `acosh` off its domain. -/
theorem C76_acosh_nan (h : LibraryOk ext fx b32 P calls g u w) {x : ℝ} (hx : x < 1) : calls "acosh" [.f x] = .nan := by
  rw [show calls "acosh" [.f x] = _ from h.fn "acosh" (by decide +kernel) rfl [.f x]]
  simp only [Gen.acosh, ofFty_apply, List.map, bindParams]
  simp [numIE_1 (FloatFmt.wide_fmtOf b32), hx, h.bits.nan]

/-- The argument of `ln` in `acosh`. -/
theorem acosh_chain {x p q s t ε τ θ : ℝ} (hε : 0 < ε) (hε1 : ε ≤ 1 / 10000) (hτ0 : 0 < τ) (hτ : τ ≤ 1 / 1000) (hx : 1 ≤ x) (hp : |p - x * x| ≤ ε * |x * x|) (hp1 : 1 ≤ p) (hq0 : 0 ≤ q)
    (hq : |q - (p - 1)| ≤ ε * (|p - 1| + τ)) (hs : |s - √q| ≤ ε * (|√q| + τ)) (hs0 : 0 ≤ s) (ht : |t - (x + s)| ≤ ε * |x + s|)
    (hθ0 : 0 ≤ θ) (hθ : θ ≤ 1 / 10) (h : 21 / 10 * ε ≤ θ ^ 2 ∨ 2 ≤ x ∧ 5 / 2 * ε ≤ θ) : |t - (x + √(x ^ 2 - 1))| ≤ (101 / 100 * θ + 3 * ε) * (x + √(x ^ 2 - 1)) := by
  have hxx : x * x = x ^ 2 := by ring
  rw [abs_of_nonneg (mul_self_nonneg x), hxx] at hp
  have hx2 : 1 ≤ x ^ 2 := by nlinarith
  have hm : 0 ≤ x ^ 2 - 1 := by linarith
  have hpa := abs_le.1 hp
  have he : |q - (x ^ 2 - 1)| ≤ 21 / 10 * ε * x ^ 2 := by
    have h1 := abs_add_le (q - (p - 1)) (p - 1 - (x ^ 2 - 1))
    rw [sub_add_sub_cancel, show p - 1 - (x ^ 2 - 1) = p - x ^ 2 by ring] at h1
    rw [abs_of_nonneg (by linarith : 0 ≤ p - 1)] at hq
    have h2 : ε * (p - 1 + τ) ≤ ε * (x ^ 2 + ε * x ^ 2) := mul_le_mul_of_nonneg_left (by linarith) hε.le
    have h3 : ε * x ^ 2 * ε ≤ ε * x ^ 2 * (1 / 10000) := mul_le_mul_of_nonneg_left hε1 (by positivity)
    nlinarith
  obtain ⟨c1, c2⟩ := sqrt_close hq0 hm
  have hS0 := Real.sqrt_nonneg (x ^ 2 - 1)
  have hSS := Real.mul_self_sqrt hm
  have hq1 := Real.sqrt_nonneg q
  generalize √(x ^ 2 - 1) = S at *
  generalize √q = r at *
  have hd : |r - S| ≤ θ * x := by
    rcases h with h | ⟨h2, h⟩
    · refine abs_le_of_sq_le_sq ?_ (by positivity)
      rw [mul_pow]
      have := mul_le_mul_of_nonneg_right h (sq_nonneg x)
      linarith
    · have h3 : 17 / 20 * x ≤ S := by
        by_contra hc
        push Not at hc
        nlinarith
      have h4 := mul_le_mul_of_nonneg_left h3 (abs_nonneg (r - S))
      by_contra hc
      push Not at hc
      have h5 := mul_lt_mul_of_pos_right hc (by linarith : 0 < x)
      have h6 := mul_le_mul_of_nonneg_right h (by positivity : 0 ≤ x ^ 2)
      nlinarith
  have hSx : S ≤ x := by nlinarith
  rw [abs_of_nonneg hq1] at hs
  rw [abs_of_nonneg (by linarith : 0 ≤ x + s)] at ht
  have h1 := abs_add_le (s - r) (r - S)
  rw [sub_add_sub_cancel] at h1
  have h2 := abs_add_le (t - (x + s)) (x + s - (x + S))
  rw [sub_add_sub_cancel, show x + s - (x + S) = s - S by ring] at h2
  have hra := abs_le.1 hd
  have hθx : 0 ≤ θ * x := by positivity
  have k1 : ε * (r + τ) ≤ ε * (S + θ * x + 1 / 1000 * x) := mul_le_mul_of_nonneg_left (by linarith) hε.le
  have k2 : ε * (θ * x) ≤ 1 / 10000 * (θ * x) := mul_le_mul_of_nonneg_right hε1 hθx
  have k3 : 0 ≤ ε * x := by positivity
  have k4 : 0 ≤ ε * S := by positivity
  have hsS : s ≤ S + θ * x + ε * (r + τ) := by linarith [(abs_le.1 hs).2]
  have k5 : ε * (x + s) ≤ ε * (x + S + θ * x + ε * (r + τ)) := mul_le_mul_of_nonneg_left (by linarith) hε.le
  have k6 : ε * (ε * (r + τ)) ≤ 1 / 10000 * (ε * (r + τ)) := mul_le_mul_of_nonneg_right hε1 (by positivity)
  have k7 : θ * x ≤ θ * (x + S) := mul_le_mul_of_nonneg_left (by linarith) hθ0
  nlinarith

theorem LibraryOk.acosh_near (h : LibraryOk ext fx b32 P calls g u w) {x θ : ℝ} (hx1 : 1 ≤ x) (hx : x ^ 2 ≤ 2 ^ ((fmtOf b32).bias - 1)) (hθ0 : 0 ≤ θ) (hθ : θ ≤ 1 / 10)
    (hc : 21 / 10 * (fmtOf b32).eps ≤ θ ^ 2 ∨ 2 ≤ x ∧ 5 / 2 * (fmtOf b32).eps ≤ θ) :
    ∃ y, calls "acosh" [.f x] = .f y ∧ |y - Real.arcosh x| ≤ 4 / 5 * log2Bound b32 u w + (fmtOf b32).eps * (4 * Real.arcosh x + 11) + 21 / 10 * θ := by
  have hF := FloatFmt.wide_fmtOf b32
  have hε := FloatFmt.eps_pos (F := fmtOf b32)
  have heps := eps_fmtOf b32
  norm_num at heps
  have hτ : (fmtOf b32).tiny ≤ 1 / 1000 := (FloatFmt.tiny_le hF).trans (by norm_num)
  have hτ0 := FloatFmt.tiny_pos (F := fmtOf b32)
  have hpow : (2 : ℝ) ^ (fmtOf b32).bias = 2 * 2 ^ ((fmtOf b32).bias - 1) := by
    rw [← pow_succ', Nat.sub_add_cancel (by cases b32 <;> decide)]
  have hbig : (2 : ℝ) ^ 100 ≤ 2 ^ ((fmtOf b32).bias - 1) := pow_le_pow_right₀ (by norm_num) (by cases b32 <;> decide)
  norm_num at hbig
  have hxx : x * x = x ^ 2 := by ring
  have hx2 : 1 ≤ x * x := by nlinarith
  have hp := rnd_rel_one (b32 := b32) (x := x * x) (by rw [abs_of_nonneg (by linarith)]; linarith)
  have hp0 : 1 ≤ (fmtOf b32).rnd (x * x) := FloatFmt.le_rnd (repr_one b32) hx2
  have hp1 : (fmtOf b32).rnd (x * x) ≤ 2 ^ ((fmtOf b32).bias - 1) := FloatFmt.rnd_le (repr_two_pow b32 _) (by rw [hxx]; exact hx)
  rw [h.acosh_run hx1, FloatFmt.rne_f hF.ok (x := x * x) (by rw [abs_of_nonneg (by linarith)]; linarith), binIE_sub]
  generalize (fmtOf b32).rnd (x * x) = p at *
  rw [FloatFmt.rne_f hF.ok (x := p - 1) (by rw [abs_of_nonneg (by linarith)]; linarith)]
  have hq := FloatFmt.rnd_err (F := fmtOf b32) (p - 1)
  have hq1 : 0 ≤ (fmtOf b32).rnd (p - 1) := FloatFmt.le_rnd FloatFmt.repr_zero (by linarith)
  have hq2 : (fmtOf b32).rnd (p - 1) ≤ 2 ^ ((fmtOf b32).bias - 1) := FloatFmt.rnd_le (repr_two_pow b32 _) (by linarith)
  generalize (fmtOf b32).rnd (p - 1) = q at *
  have hsq0 := Real.sqrt_nonneg q
  have hsq2 : √q ≤ q + 1 := by
    have := Real.mul_self_sqrt hq1; nlinarith
  rw [methIE_sqrt _ hq1, FloatFmt.rne_f hF.ok (by rw [abs_of_nonneg hsq0]; linarith), binIE_add]
  have hs := FloatFmt.rnd_err (F := fmtOf b32) (√q)
  have hs0 : 0 ≤ (fmtOf b32).rnd (√q) := FloatFmt.le_rnd FloatFmt.repr_zero hsq0
  generalize (fmtOf b32).rnd (√q) = s at *
  have ht := rnd_rel_one (b32 := b32) (x := x + s) (by rw [abs_of_nonneg (by linarith)]; linarith)
  have hd := acosh_chain hε (by linarith) hτ0 hτ hx1 hp hp0 hq1 hq hs hs0 ht hθ0 hθ hc
  have hS0 := Real.sqrt_nonneg (x ^ 2 - 1)
  have hSS := Real.mul_self_sqrt (by linarith : 0 ≤ x ^ 2 - 1)
  have hxS : x + √(x ^ 2 - 1) ≤ 2 ^ (fmtOf b32).bias / 2 := by
    rw [hpow]
    nlinarith [sq_nonneg (x / 2 - 1), sq_nonneg (√(x ^ 2 - 1) / 2 - 1)]
  rw [FloatFmt.rne_f hF.ok (x := x + s) (by
    have hxs : 0 ≤ x + s := by linarith
    rw [abs_of_nonneg hxs] at ht ⊢
    have h1 := abs_add_le ((x + s) - (fmtOf b32).rnd (x + s)) ((fmtOf b32).rnd (x + s) - (x + √(x ^ 2 - 1)))
    rw [sub_add_sub_cancel, abs_sub_comm (x + s) ((fmtOf b32).rnd (x + s))] at h1
    have h2 := (abs_le.1 h1).2
    have h3 : (101 / 100 * θ + 3 * (fmtOf b32).eps) * (x + √(x ^ 2 - 1)) ≤ 1 / 5 * (x + √(x ^ 2 - 1)) := mul_le_mul_of_nonneg_right (by linarith) (by linarith)
    have h4 : (fmtOf b32).eps * (x + s) ≤ 1 / 16777216 * (x + s) := mul_le_mul_of_nonneg_right heps (by linarith)
    linarith)]
  obtain ⟨y, hy, -, hye⟩ := h.ln_near (FloatFmt.rnd_repr (F := fmtOf b32) (x + s)) (T := x + √(x ^ 2 - 1)) (by linarith) (by linarith [(by positivity : (0 : ℝ) < 2 ^ (fmtOf b32).bias)]) (by linarith) hd
  refine ⟨y, hy, ?_⟩
  rw [show Real.log (x + √(x ^ 2 - 1)) = Real.arcosh x from rfl, abs_of_nonneg (Real.arcosh_nonneg hx1)] at hye
  linarith

/-- **C76** Generated `acosh` in float arithmetic, of numbers whose square does not overflow; near one with the error of a square root. -/
theorem C76_acosh_partial (h : LibraryOk ext fx b32 P calls g u w) {x : ℝ} (hx1 : 1 ≤ x) (hx : x ^ 2 ≤ 2 ^ ((fmtOf b32).bias - 1)) :
    ∃ y, calls "acosh" [.f x] = .f y ∧ |y - Real.arcosh x| ≤ 4 / 5 * log2Bound b32 u w + (fmtOf b32).eps * (4 * Real.arcosh x + 11) + 7 / 2 * √(fmtOf b32).eps ∧
      (2 ≤ x → |y - Real.arcosh x| ≤ 4 / 5 * log2Bound b32 u w + (fmtOf b32).eps * (4 * Real.arcosh x + 17)) := by
  have hε := FloatFmt.eps_pos (F := fmtOf b32)
  have heps := eps_fmtOf b32
  have hr0 := Real.sqrt_nonneg (fmtOf b32).eps
  have hrr := Real.sq_sqrt hε.le
  have hr1 : √(fmtOf b32).eps ≤ 1 / 2 ^ 12 := by
    rw [Real.sqrt_le_left (by norm_num)]
    refine heps.trans (by norm_num)
  norm_num at hr1 heps
  obtain ⟨y, hy, he⟩ := h.acosh_near (θ := 3 / 2 * √(fmtOf b32).eps) hx1 hx (by positivity) (by linarith) (.inl (by rw [mul_pow, hrr]; linarith))
  refine ⟨y, hy, by linarith, fun h2 => ?_⟩
  obtain ⟨y', hy', he'⟩ := h.acosh_near (θ := 5 / 2 * (fmtOf b32).eps) hx1 hx (by positivity) (by linarith) (.inr ⟨h2, le_rfl⟩)
  rw [hy] at hy'
  rw [RV.f.inj hy']
  linarith

/-- **C76** Generated `acosh` of every number whose square overflows is the same number. -/
theorem C76_acosh_overflow (h : LibraryOk ext fx b32 P calls g u w) {x : ℝ} (h1 : 1 ≤ x) (hx : 2 ^ ((fmtOf b32).bias + 1) ≤ x ^ 2) : calls "acosh" [.f x] = calls "ln" [.inf false] := by
  rw [h.acosh_run h1, rne_over (by rw [← sq]; exact hx)]
  simp [binIE, addIE, methIE, unRV]

/-! ## `atanh` -/

theorem LibraryOk.atanh_run (h : LibraryOk ext fx b32 P calls g u w) (x : RV) :
    calls "atanh" [x] = binIE (fmtOf b32) .mul (binIE (fmtOf b32) .sub (calls "ln" [binIE (fmtOf b32) .add (.f 1) x]) (calls "ln" [binIE (fmtOf b32) .sub (.f 1) x])) (.f (1 / 2)) := by
  rw [show calls "atanh" [x] = _ from h.fn "atanh" (by decide +kernel) rfl [x]]
  simp only [Gen.atanh, ofFty_apply, List.map, bindParams]
  simp [numIE_1 (FloatFmt.wide_fmtOf b32), numIE_half (FloatFmt.wide_fmtOf b32)]

/-- No float is nearer to one than the rounding error. -/
theorem repr_gap {x : ℝ} (hx : (fmtOf b32).Repr x) (h : x ≠ 1) : (fmtOf b32).eps ≤ |1 - x| := by
  have hε := FloatFmt.eps_pos (F := fmtOf b32)
  have heps := eps_fmtOf b32
  norm_num at heps
  by_cases hx2 : x < 1 / 2
  · rw [abs_of_pos (by linarith)]; linarith
  push Not at hx2
  obtain ⟨n, hn⟩ := hx.multiple_of (E := -1) (by rw [abs_of_pos (by linarith)]; norm_num at *; exact hx2)
  have h1 : (2 : ℝ) ^ (-1 - (fmtOf b32).mant : ℤ) = (fmtOf b32).eps := by
    unfold FloatFmt.eps; congr 1; ring
  rw [h1] at hn
  have h2 : (1 : ℝ) = ((2 ^ ((fmtOf b32).mant + 1) : ℤ) : ℝ) * (fmtOf b32).eps := by
    unfold FloatFmt.eps
    push_cast
    rw [← zpow_natCast, ← zpow_add₀ (by norm_num)]
    simp
  have h3 : 1 - x = ((2 ^ ((fmtOf b32).mant + 1) - n : ℤ) : ℝ) * (fmtOf b32).eps := by
    rw [Int.cast_sub, sub_mul, ← h2, ← hn]
  have h4 : (1 : ℝ) ≤ |((2 ^ ((fmtOf b32).mant + 1) - n : ℤ) : ℝ)| := by
    rw [← Int.cast_abs]
    have : (1 : ℤ) ≤ |2 ^ ((fmtOf b32).mant + 1) - n| := by
      refine Int.one_le_abs fun h0 => h ?_
      rw [h0] at h3
      simp at h3
      linarith
    exact_mod_cast this
  rw [h3, abs_mul, abs_of_pos hε]
  nlinarith

theorem atanh_chain {L1 L2 y1 y2 d r δ ε τ A : ℝ} (hε : 0 < ε) (hε1 : ε ≤ 1 / 10000) (hτ : τ ≤ 1 / 1000) (hδ : δ ≤ 1 / 10) (hA : (L1 - L2) / 2 = A) (hs : |L1| + |L2| = 2 * |A|)
    (h1 : |y1 - L1| ≤ δ + 4 * ε * (|L1| + 1) + 201 / 100 * ε) (h2 : |y2 - L2| ≤ δ + 4 * ε * (|L2| + 1) + 201 / 100 * ε) (hd : |d - (y1 - y2)| ≤ ε * (|y1 - y2| + τ)) (hr : |r - d * (1 / 2)| ≤ ε * (|d * (1 / 2)| + τ)) :
    |r - A| ≤ δ + ε * (7 * |A| + 7) := by
  have hA0 := abs_nonneg A
  have e1 : |(y1 - y2) - 2 * A| ≤ 2 * δ + ε * (8 * |A| + 1202 / 100) := by
    have := abs_sub (y1 - L1) (y2 - L2)
    rw [show y1 - L1 - (y2 - L2) = (y1 - y2) - 2 * A by rw [← hA]; ring] at this
    have k : ε * |L1| + ε * |L2| = ε * (2 * |A|) := by rw [← mul_add, hs]
    linarith
  have e2 : |y1 - y2| ≤ 2 * |A| + |(y1 - y2) - 2 * A| := by
    have := abs_add_le ((y1 - y2) - 2 * A) (2 * A)
    rw [sub_add_cancel, abs_mul, abs_two] at this
    linarith
  have e3 : |d| ≤ |y1 - y2| + |d - (y1 - y2)| := by
    have := abs_add_le (d - (y1 - y2)) (y1 - y2)
    rw [sub_add_cancel] at this
    linarith
  rw [abs_mul, abs_of_pos (by norm_num : (0 : ℝ) < 1 / 2)] at hr
  have e4 := abs_add_three (r - d * (1 / 2)) ((d - (y1 - y2)) * (1 / 2)) (((y1 - y2) - 2 * A) * (1 / 2))
  rw [abs_mul, abs_mul, abs_of_pos (by norm_num : (0 : ℝ) < 1 / 2), show r - d * (1 / 2) + (d - (y1 - y2)) * (1 / 2) + (y1 - y2 - 2 * A) * (1 / 2) = r - A by ring] at e4
  have hεA : 0 ≤ ε * |A| := by positivity
  have m1 : ε * (8 * |A| + 1202 / 100) ≤ 1 / 10000 * (8 * |A| + 1202 / 100) := mul_le_mul_of_nonneg_right hε1 (by positivity)
  have e5 : |y1 - y2| ≤ 21 / 10 * |A| + 21 / 100 := by linarith
  have e6 : |d - (y1 - y2)| ≤ ε * (21 / 10 * |A| + 22 / 100) := hd.trans (mul_le_mul_of_nonneg_left (by linarith) hε.le)
  have m2 : ε * (21 / 10 * |A| + 22 / 100) ≤ 1 / 10000 * (21 / 10 * |A| + 22 / 100) := mul_le_mul_of_nonneg_right hε1 (by positivity)
  have e7 : ε * (|d| * (1 / 2) + τ) ≤ ε * (11 / 10 * |A| + 12 / 100) := mul_le_mul_of_nonneg_left (by linarith) hε.le
  linarith

theorem artanh_sum {x : ℝ} (h1 : -1 < x) (h2 : x < 1) : (Real.log (1 + x) - Real.log (1 - x)) / 2 = Real.artanh x ∧ |Real.log (1 + x)| + |Real.log (1 - x)| = 2 * |Real.artanh x| := by
  have ha : (Real.log (1 + x) - Real.log (1 - x)) / 2 = Real.artanh x := by
    rw [Real.artanh_eq_half_log ⟨h1.le, h2.le⟩, Real.log_div (by linarith) (by linarith)]; ring
  refine ⟨ha, ?_⟩
  rw [← ha]
  rcases le_total 0 x with h0 | h0
  · have k1 : 0 ≤ Real.log (1 + x) := Real.log_nonneg (by linarith)
    have k2 : Real.log (1 - x) ≤ 0 := Real.log_nonpos (by linarith) (by linarith)
    rw [abs_of_nonneg k1, abs_of_nonpos k2, abs_of_nonneg (by linarith)]; ring
  · have k1 : Real.log (1 + x) ≤ 0 := Real.log_nonpos (by linarith) (by linarith)
    have k2 : 0 ≤ Real.log (1 - x) := Real.log_nonneg (by linarith)
    rw [abs_of_nonpos k1, abs_of_nonneg k2, abs_of_nonpos (by linarith)]; ring

theorem artanh_small {x : ℝ} (hx : (fmtOf b32).Repr x) (h1 : -1 < x) (h2 : x < 1) : (fmtOf b32).eps ≤ 1 - x ∧ (fmtOf b32).eps ≤ 1 + x := by
  have k1 := repr_gap hx h2.ne
  have k2 := repr_gap hx.neg (by intro hc; linarith)
  rw [abs_of_pos (by linarith)] at k1 k2
  constructor <;> linarith

/-- **C76** Generated `atanh` in float arithmetic, inside its domain. -/
theorem C76_atanh (h : LibraryOk ext fx b32 P calls g u w) {x : ℝ} (hx : (fmtOf b32).Repr x) (h1 : -1 < x) (h2 : x < 1) :
    ∃ y, calls "atanh" [.f x] = .f y ∧ |y - Real.artanh x| ≤ 4 / 5 * log2Bound b32 u w + (fmtOf b32).eps * (7 * |Real.artanh x| + 7) := by
  have hF := FloatFmt.wide_fmtOf b32
  have hε := FloatFmt.eps_pos (F := fmtOf b32)
  have heps := eps_fmtOf b32
  norm_num at heps
  have hτε := tiny_eps b32
  have hτ0 := FloatFmt.tiny_pos (F := fmtOf b32)
  obtain ⟨g1, g2⟩ := artanh_small hx h1 h2
  have hbig : (2 : ℝ) ^ 100 ≤ 2 ^ (fmtOf b32).bias := pow_le_pow_right₀ (by norm_num) (by cases b32 <;> decide)
  norm_num at hbig
  obtain ⟨hA, hs⟩ := artanh_sum h1 h2
  have one : ∀ t, (fmtOf b32).eps ≤ t → t ≤ 2 → ∃ y, calls "ln" [(fmtOf b32).rne t] = .f y ∧ |y - Real.log t| ≤ 4 / 5 * log2Bound b32 u w + 4 * (fmtOf b32).eps * (|Real.log t| + 1) + 201 / 100 * (fmtOf b32).eps ∧ |y| ≤ 2 ^ 20 := by
    intro t ht0 ht2
    have htp : 0 < t := by linarith
    rw [FloatFmt.rne_f hF.ok (by rw [abs_of_pos htp]; linarith)]
    have hrel := FloatFmt.rnd_rel (F := fmtOf b32) (x := t) (by rw [abs_of_pos htp]; linarith)
    rw [abs_of_pos htp] at hrel
    obtain ⟨y, hy, -, he⟩ := h.ln_near (FloatFmt.rnd_repr (F := fmtOf b32) t) (T := t) (by linarith) (by linarith) (by linarith) hrel
    refine ⟨y, hy, he, ?_⟩
    have hl1 : Real.log t ≤ 1 := (Real.log_le_sub_one_of_pos htp).trans (by linarith)
    have hl2 : -64 ≤ Real.log t := by
      have k1 := Real.log_le_log (by norm_num) ((eps_ge b32).trans ht0)
      rw [one_div, Real.log_inv, Real.log_pow] at k1
      have := Real.log_two_lt_d9
      norm_num at k1 this
      linarith
    have hl : |Real.log t| ≤ 64 := abs_le.2 ⟨hl2, by linarith⟩
    have k := abs_add_le (y - Real.log t) (Real.log t)
    rw [sub_add_cancel] at k
    have k2 : 4 * (fmtOf b32).eps * (|Real.log t| + 1) ≤ 4 * (1 / 16777216) * (64 + 1) := mul_le_mul (by linarith) (by linarith) (by positivity) (by norm_num)
    have := h.log2_small.2
    linarith
  obtain ⟨y1, hy1, he1, hb1⟩ := one (1 + x) g2 (by linarith)
  obtain ⟨y2, hy2, he2, hb2⟩ := one (1 - x) g1 (by linarith)
  rw [h.atanh_run, binIE_add, binIE_sub, hy1, hy2, binIE_sub]
  have hab : |y1 - y2| ≤ 2 ^ 21 := (abs_sub _ _).trans (by linarith)
  rw [FloatFmt.rne_f hF.ok (by linarith), binIE_mul]
  have hd := FloatFmt.rnd_err (F := fmtOf b32) (y1 - y2)
  have hτ : (fmtOf b32).tiny ≤ 1 / 1000 := by linarith
  generalize (fmtOf b32).rnd (y1 - y2) = d at *
  have hdb : |d * (1 / 2)| ≤ 2 ^ 22 := by
    rw [abs_mul, abs_of_pos (by norm_num : (0 : ℝ) < 1 / 2)]
    have := abs_add_le (d - (y1 - y2)) (y1 - y2)
    rw [sub_add_cancel] at this
    have k2 : (fmtOf b32).eps * (|y1 - y2| + (fmtOf b32).tiny) ≤ 1 * (|y1 - y2| + (fmtOf b32).tiny) := mul_le_mul_of_nonneg_right (by linarith) (by positivity)
    linarith
  rw [FloatFmt.rne_f hF.ok (by linarith)]
  have hr := FloatFmt.rnd_err (F := fmtOf b32) (d * (1 / 2))
  obtain ⟨hδ0, hδ⟩ := h.log2_small
  exact ⟨_, rfl, atanh_chain hε (by linarith) hτ (by linarith) hA hs he1 he2 hd hr⟩

/-- A float next to one rounds to one. -/
theorem rnd_one {t : ℝ} (h : |t| < (fmtOf b32).eps / 2) : (fmtOf b32).rnd (1 + t) = 1 := by
  by_contra hc
  have hε := FloatFmt.eps_pos (F := fmtOf b32)
  have h1 := repr_gap (FloatFmt.rnd_repr (F := fmtOf b32) (1 + t)) hc
  have h2 := FloatFmt.rnd_nearest (F := fmtOf b32) (1 + t) (repr_one b32)
  rw [sub_add_cancel_left, abs_neg] at h2
  have h3 := abs_sub (1 + t - (fmtOf b32).rnd (1 + t)) t
  rw [show 1 + t - (fmtOf b32).rnd (1 + t) - t = 1 - (fmtOf b32).rnd (1 + t) by ring, abs_sub_comm (1 + t)] at h3
  linarith

/-- **C76** Generated `atanh` of every number small enough is exactly zero: all of its relative accuracy is lost. -/
theorem C76_atanh_small (h : LibraryOk ext fx b32 P calls g u w) {x : ℝ} (hx : |x| < (fmtOf b32).eps / 2) : calls "atanh" [.f x] = .f 0 := by
  have hF := FloatFmt.wide_fmtOf b32
  have hε := FloatFmt.eps_pos (F := fmtOf b32)
  have heps := eps_fmtOf b32
  norm_num at heps
  have hx1 := abs_lt.1 hx
  have hbig : (2 : ℝ) ^ 100 ≤ 2 ^ (fmtOf b32).bias := pow_le_pow_right₀ (by norm_num) (by cases b32 <;> decide)
  norm_num at hbig
  have hτ : (fmtOf b32).tiny ≤ 1 / 1000 := (FloatFmt.tiny_le hF).trans (by norm_num)
  obtain ⟨y, hy, -, -⟩ := h.ln.val 1 (repr_one b32) (by linarith) (by rw [pow_succ]; linarith)
  rw [h.atanh_run, binIE_add, binIE_sub, FloatFmt.rne_f hF.ok (x := 1 + x) (by rw [abs_of_pos (by linarith)]; linarith),
    FloatFmt.rne_f hF.ok (x := 1 - x) (by rw [abs_of_pos (by linarith)]; linarith), rnd_one hx, show 1 - x = 1 + -x by ring, rnd_one (by rwa [abs_neg]), hy, binIE_sub, sub_self,
    FloatFmt.rne_repr FloatFmt.repr_zero (by simp), binIE_mul, zero_mul, FloatFmt.rne_repr FloatFmt.repr_zero (by simp)]

theorem LibraryOk.ln_up (h : LibraryOk ext fx b32 P calls g u w) {t : ℝ} (ht : 1 ≤ t) : ∃ y, calls "ln" [(fmtOf b32).rne t] = .f y := by
  have hτ : (fmtOf b32).tiny ≤ 1 := (FloatFmt.tiny_le (FloatFmt.wide_fmtOf b32)).trans (by norm_num)
  have h1 : 1 ≤ (fmtOf b32).rnd t := FloatFmt.le_rnd (repr_one b32) ht
  unfold FloatFmt.rne
  split
  · rename_i h2
    obtain ⟨y, hy, -⟩ := h.ln.val _ (FloatFmt.rnd_repr (F := fmtOf b32) t) (by linarith) ((le_abs_self _).trans_lt h2)
    exact ⟨y, hy⟩
  · rw [decide_eq_false (by linarith)]
    obtain ⟨y, hy, -⟩ := h.ln.inf
    exact ⟨y, hy⟩

theorem LibraryOk.ln_down (h : LibraryOk ext fx b32 P calls g u w) {t : ℝ} (ht : t ≤ -(fmtOf b32).eps) : calls "ln" [(fmtOf b32).rne t] = .nan := by
  have hε := FloatFmt.eps_pos (F := fmtOf b32)
  have hτ := FloatFmt.tiny_pos (F := fmtOf b32)
  have h1 : (fmtOf b32).rnd t ≤ -(fmtOf b32).eps := by
    refine FloatFmt.rnd_le (FloatFmt.Repr.neg ?_) ht
    unfold FloatFmt.eps
    exact FloatFmt.repr_zpow (by cases b32 <;> decide)
  unfold FloatFmt.rne
  split
  · rw [h.ln.small _ (by linarith), if_pos (by linarith)]
  · rw [decide_eq_true (by linarith), h.ln.ninf]

/-- **C76** Generated `atanh` at the ends of its domain and off it. -/
theorem C76_atanh_edges (h : LibraryOk ext fx b32 P calls g u w) : calls "atanh" [.f 1] = .inf false ∧ calls "atanh" [.f (-1)] = .inf true ∧
    (∀ x, (fmtOf b32).Repr x → 1 < |x| → calls "atanh" [.f x] = .nan) ∧ ∀ s, calls "atanh" [.inf s] = .nan := by
  have hF := FloatFmt.wide_fmtOf b32
  have hε := FloatFmt.eps_pos (F := fmtOf b32)
  have hτ := FloatFmt.tiny_pos (F := fmtOf b32)
  have hz : (fmtOf b32).rne 0 = .f 0 := FloatFmt.rne_repr FloatFmt.repr_zero (by simp)
  have hl0 : calls "ln" [.f 0] = .inf true := by rw [h.ln.small 0 hτ, if_neg (lt_irrefl _)]
  obtain ⟨y2, hy2⟩ := h.ln_up (t := 1 + 1) (by norm_num)
  obtain ⟨yi, hyi, -⟩ := h.ln.inf
  have hnf : ∀ y : ℝ, binIE (fmtOf b32) .mul (binIE (fmtOf b32) .sub (.f y) .nan) (.f (1 / 2)) = .nan ∧ binIE (fmtOf b32) .mul (binIE (fmtOf b32) .sub .nan (.f y)) (.f (1 / 2)) = .nan := fun y => ⟨rfl, rfl⟩
  refine ⟨?_, ?_, fun x hx h1 => ?_, fun s => ?_⟩
  · rw [h.atanh_run, binIE_add, binIE_sub, sub_self, hz, hl0, hy2]
    simp [binIE, addIE, mulIE, unRV]
  · rw [h.atanh_run, binIE_add, binIE_sub, add_neg_cancel, sub_neg_eq_add, hz, hl0, hy2]
    simp [binIE, addIE, mulIE, unRV]
  · rw [h.atanh_run, binIE_add, binIE_sub]
    rcases lt_abs.1 h1 with h2 | h2
    · have k := repr_gap hx h2.ne'
      rw [abs_of_neg (by linarith)] at k
      obtain ⟨y, hy⟩ := h.ln_up (t := 1 + x) (by linarith)
      rw [hy, h.ln_down (by linarith)]
      exact (hnf y).1
    · have k := repr_gap hx.neg h2.ne'
      rw [abs_of_neg (by linarith)] at k
      obtain ⟨y, hy⟩ := h.ln_up (t := 1 - x) (by linarith)
      rw [hy, h.ln_down (by linarith)]
      exact (hnf y).2
  · rw [h.atanh_run]
    cases s
    · rw [show binIE (fmtOf b32) .add (.f 1) (.inf false) = .inf false from rfl, show binIE (fmtOf b32) .sub (.f 1) (.inf false) = .inf true from rfl, hyi, h.ln.ninf]
      exact (hnf yi).1
    · rw [show binIE (fmtOf b32) .add (.f 1) (.inf true) = .inf true from rfl, show binIE (fmtOf b32) .sub (.f 1) (.inf true) = .inf false from rfl, hyi, h.ln.ninf]
      exact (hnf yi).2

end
end Verif

import Mathlib.Analysis.SpecialFunctions.Trigonometric.ArctanDeriv
import Mathlib.Analysis.Calculus.MeanValue
import Verif.Lemmas.GeoSeries
import Verif.Spec.Sqrt

/-! # Arctangent -/

namespace Verif
namespace Bd
open Dec

/-- Error bound of the arctangent series on `[-1/2, 1/2]`. -/
noncomputable def atanE (n : ℕ) : ℝ := 1 / 20 / 10 ^ n + 1 / 10 ^ 99 + 1 / 100 ^ n * (36 * n + 43)

theorem two_pow_small (n K : ℕ) (h : 8 * n ≤ K) : (1 / 2 : ℚ) ^ K ≤ 1 / 100 ^ n := by
  rw [one_div_pow]
  apply one_div_le_one_div_of_le (by positivity)
  calc (100 : ℚ) ^ n ≤ (2 ^ 8) ^ n := by gcongr; norm_num
    _ = 2 ^ (8 * n) := by rw [pow_mul]
    _ ≤ 2 ^ K := pow_le_pow_right₀ (by norm_num) h

theorem atan_series (x : Dec) (n : ℕ) (hx : |x.val| ≤ 1 / 2) (hn : 8 * n + 9 ≤ 30001) :
    ∃ d, maclaurin x n atanTerm () = .ok d ∧ |(d.val : ℝ) - Real.arctan (x.val : ℝ)| ≤ atanE n := by
  have hxR : |(x.val : ℝ)| < 1 := by
    have : ((|x.val| : ℚ) : ℝ) ≤ ((1 / 2 : ℚ) : ℝ) := by exact_mod_cast hx
    push_cast at this
    linarith
  obtain ⟨d, h1, h2⟩ := geoLike_error x n atanTerm atanC geoLike_atan divEps divEps_nonneg divEps_le _ follows_atan ()
    trivial (1 / 2) 2 (by norm_num) (by norm_num) hx (8 * n + 9)
    (by push_cast; linarith [(by positivity : (0 : ℚ) ≤ n)]) (two_pow_small n _ (by omega)) hn
    (by
      unfold atanC
      rw [if_neg (by omega)]
      split_ifs
      · positivity
      · rw [neg_ne_zero]; positivity) _ (hasSum_atan _ hxR)
  refine ⟨d, h1, h2.trans ?_⟩
  unfold atanE
  have e : ((divEps : ℚ) : ℝ) * ((2 : ℚ) : ℝ) = 1 / 10 ^ 99 := by unfold divEps; norm_num
  rw [e]
  have hu : (0 : ℝ) < 1 / 100 ^ n := by positivity
  push_cast
  have : (8 * (n : ℝ) + 9) * 2 + (8 * n + 9) / 2 + 2 * (1 + (8 * n + 9) * 2 / 2) ≤ 36 * n + 43 := by linarith
  have := mul_le_mul_of_nonneg_left this hu.le
  linarith

/-- Half-angle formula. -/
theorem arctan_half (x : ℝ) : Real.arctan x = 2 * Real.arctan (x / (1 + √(1 + x ^ 2))) := by
  have hs : 0 ≤ √(1 + x ^ 2) := Real.sqrt_nonneg _
  have hsq : √(1 + x ^ 2) ^ 2 = 1 + x ^ 2 := Real.sq_sqrt (by positivity)
  set s := √(1 + x ^ 2) with hsdef
  have hs1 : 1 ≤ s := by nlinarith [sq_nonneg x]
  have hlt : |x| < 1 + s := by
    have : |x| < s + 1 := by
      have h1 : |x| ^ 2 < (s + 1) ^ 2 := by rw [sq_abs]; nlinarith
      exact lt_of_pow_lt_pow_left₀ 2 (by positivity) h1
    linarith
  have hp : 0 < 1 + s := by linarith
  have hb : |x / (1 + s)| < 1 := by rw [abs_div, abs_of_pos hp, div_lt_one hp]; exact hlt
  rw [abs_lt] at hb
  rw [Real.two_mul_arctan hb.1 hb.2]
  congr 1
  have hne : (1 : ℝ) - (x / (1 + s)) ^ 2 ≠ 0 := by
    have : (x / (1 + s)) ^ 2 < 1 := by nlinarith [hb.1, hb.2]
    linarith
  rw [eq_div_iff hne]
  field_simp
  have hx2 : x ^ 2 = s ^ 2 - 1 := by linarith
  rw [hx2]
  ring

theorem arctan_lipschitz (a b : ℝ) : |Real.arctan a - Real.arctan b| ≤ |a - b| := by
  have h := Convex.norm_image_sub_le_of_norm_deriv_le (f := Real.arctan) (C := 1) (s := Set.univ) (x := b) (y := a)
    (fun x _ => Real.differentiableAt_arctan x)
    (fun x _ => by
      rw [Real.deriv_arctan, Real.norm_eq_abs, abs_of_nonneg (by positivity)]
      rw [div_le_one (by positivity)]
      nlinarith [sq_nonneg x])
    convex_univ (Set.mem_univ _) (Set.mem_univ _)
  simpa using h

/-- One range reduction step of `atan`. -/
theorem atan_step (ext : BdExt) (hs : SqrtOk ext) (x : Dec) :
    ∃ r y, ext.sqrt (Dec.one + x * x) = some r ∧ Dec.div x (Dec.one + r) = .ok y ∧
      |(y.val : ℝ) - (x.val : ℝ) / (1 + √(1 + (x.val : ℝ) ^ 2))| ≤
        4 / 10 ^ 98 * |(x.val : ℝ) / (1 + √(1 + (x.val : ℝ) ^ 2))| := by
  have hv : ((Dec.one + x * x).val : ℝ) = 1 + (x.val : ℝ) ^ 2 := by simp [sq]
  obtain ⟨r, hr, hre⟩ := hs.ok (Dec.one + x * x) (by
    rw [val_add, val_mul, val_one]; nlinarith [mul_self_nonneg x.val])
  rw [hv] at hre
  set s := √(1 + (x.val : ℝ) ^ 2) with hsdef
  have hsq : s ^ 2 = 1 + (x.val : ℝ) ^ 2 := Real.sq_sqrt (by positivity)
  have hs1 : 1 ≤ s := by
    have : 0 ≤ s := Real.sqrt_nonneg _
    nlinarith [sq_nonneg (x.val : ℝ)]
  have hη : (1 : ℝ) / 10 ^ 98 ≤ 1 / 100 := by norm_num
  set η : ℝ := 1 / 10 ^ 98 with hηdef
  have hη0 : 0 < η := by rw [hηdef]; positivity
  clear_value η s
  have hr1 := abs_le.1 hre
  have hηs : η * s ≤ 1 / 100 * s := mul_le_mul_of_nonneg_right hη (by linarith)
  have hrpos : (0 : ℝ) < 1 + r.val := by linarith [hr1.1]
  have hne : (Dec.one + r).val ≠ 0 := by
    rw [val_add, val_one]
    intro h
    have : ((1 + r.val : ℚ) : ℝ) = 0 := by rw [h]; simp
    push_cast at this
    linarith
  obtain ⟨y, hy, hye⟩ := (div_spec x (Dec.one + r)).2 hne
  refine ⟨r, y, hr, hy, ?_⟩
  have hyR : |(y.val : ℝ) - (x.val : ℝ) / (1 + r.val)| ≤ η * |(x.val : ℝ) / (1 + r.val)| := by
    rw [val_add, val_one] at hye
    have h1 : ((|y.val - x.val / (1 + r.val)| : ℚ) : ℝ) ≤ ((divEps * |x.val / (1 + r.val)| : ℚ) : ℝ) := by exact_mod_cast hye
    push_cast at h1
    refine h1.trans ?_
    gcongr
    rw [hηdef]; unfold divEps; norm_num
  set X := (x.val : ℝ)
  set R := (r.val : ℝ)
  have hden : (0 : ℝ) < 1 + s := by linarith
  have h2 : |X / (1 + R) - X / (1 + s)| ≤ 2 * η * |X / (1 + s)| := by
    have e : X / (1 + R) - X / (1 + s) = X / (1 + s) * ((s - R) / (1 + R)) := by field_simp; ring
    rw [e, abs_mul, mul_comm (2 * η)]
    gcongr
    rw [abs_div, abs_of_pos hrpos, div_le_iff₀ hrpos, abs_sub_comm]
    have h9 : s / 2 ≤ 1 + R := by linarith [hr1.1]
    have h10 := mul_le_mul_of_nonneg_left h9 (by linarith : 0 ≤ 2 * η)
    linarith
  have h3 : |X / (1 + R)| ≤ (1 + 2 * η) * |X / (1 + s)| := by
    have := abs_add_le (X / (1 + R) - X / (1 + s)) (X / (1 + s))
    rw [sub_add_cancel] at this
    linarith
  have h4 := abs_sub_le (y.val : ℝ) (X / (1 + R)) (X / (1 + s))
  have h5 : η * |X / (1 + R)| ≤ η * ((1 + 2 * η) * |X / (1 + s)|) := mul_le_mul_of_nonneg_left h3 hη0.le
  have h6 : 0 ≤ |X / (1 + s)| := abs_nonneg _
  have h7 : η * ((1 + 2 * η) * |X / (1 + s)|) ≤ 2 * η * |X / (1 + s)| := by nlinarith [mul_nonneg hη0.le h6]
  have h8 : (4 : ℝ) / 10 ^ 98 = 4 * η := by rw [hηdef]; ring
  rw [h8]
  linarith

theorem half_lt (x : Dec) : Dec.lt Dec.half x.abs = true ↔ 1 / 2 < |x.val| := by
  rw [lt_iff, val_half, val_abs]

/-- A point reached after one reduction is at most `1.01`. -/
theorem atan_reduced_le (X : ℝ) : |X / (1 + √(1 + X ^ 2))| < 1 := by
  have hsq : √(1 + X ^ 2) ^ 2 = 1 + X ^ 2 := Real.sq_sqrt (by positivity)
  have h0 : 0 ≤ √(1 + X ^ 2) := Real.sqrt_nonneg _
  set s := √(1 + X ^ 2)
  have hp : 0 < 1 + s := by linarith
  rw [abs_div, abs_of_pos hp, div_lt_one hp]
  have h1 : |X| ^ 2 < (1 + s) ^ 2 := by rw [sq_abs]; nlinarith
  exact lt_of_pow_lt_pow_left₀ 2 (by positivity) h1

/-- From at most `1.01` one more reduction gives less than `0.45`. -/
theorem atan_reduced_le2 (X : ℝ) (hX : |X| ≤ 1.01) : |X / (1 + √(1 + X ^ 2))| ≤ 0.45 := by
  have hsq : √(1 + X ^ 2) ^ 2 = 1 + X ^ 2 := Real.sq_sqrt (by positivity)
  have h0 : 0 ≤ √(1 + X ^ 2) := Real.sqrt_nonneg _
  set s := √(1 + X ^ 2)
  have hp : 0 < 1 + s := by linarith
  rw [abs_div, abs_of_pos hp, div_le_iff₀ hp]
  rw [← sq_abs X] at hsq
  have ha := abs_nonneg X
  set a := |X|
  by_cases h : a ≤ 0.9
  · have : 1 ≤ s := by nlinarith
    linarith
  · push Not at h
    have : 1.34 ≤ s := by nlinarith
    linarith

theorem atanRec_small (ext : BdExt) (n fuel : ℕ) (x : Dec) (hx : |x.val| ≤ 1 / 2) :
    atanRec ext n (fuel + 1) x = maclaurin x n atanTerm () := by
  rw [atanRec, if_neg]
  rw [half_lt]
  linarith

theorem atanRec_big (ext : BdExt) (n fuel : ℕ) (x r y a : Dec) (hx : 1 / 2 < |x.val|)
    (hr : ext.sqrt (Dec.one + x * x) = some r) (hy : Dec.div x (Dec.one + r) = .ok y)
    (ha : atanRec ext n fuel y = .ok a) : atanRec ext n (fuel + 1) x = .ok (a * Dec.two) := by
  rw [atanRec, if_pos ((half_lt x).2 hx), hr]
  simp only [Res.unwrapOpt, Res.ok_bind, hy, ha]
  rfl

theorem step_error (X Y a E δ : ℝ) (hY : |Y - X / (1 + √(1 + X ^ 2))| ≤ δ) (ha : |a - Real.arctan Y| ≤ E) :
    |a * 2 - Real.arctan X| ≤ 2 * E + 2 * δ := by
  rw [arctan_half X]
  have h1 := arctan_lipschitz Y (X / (1 + √(1 + X ^ 2)))
  have h2 := abs_sub_le a (Real.arctan Y) (Real.arctan (X / (1 + √(1 + X ^ 2))))
  rw [show a * 2 - 2 * Real.arctan (X / (1 + √(1 + X ^ 2))) = 2 * (a - Real.arctan (X / (1 + √(1 + X ^ 2)))) by ring,
    abs_mul, abs_of_pos (by norm_num : (0 : ℝ) < 2)]
  linarith

theorem atanE_pos (n : ℕ) : 0 < atanE n := by unfold atanE; positivity

/-- Arctangent, with at most two reductions. -/
theorem atan_error (ext : BdExt) (hs : SqrtOk ext) (hfuel : 3 ≤ ext.fuel) (x : Dec) (n : ℕ) (hn : 8 * n + 9 ≤ 30001) :
    ∃ d, Bd.atan ext x n = .ok d ∧ |(d.val : ℝ) - Real.arctan (x.val : ℝ)| ≤ 4 * atanE n + 24 / 10 ^ 98 := by
  obtain ⟨k, hk⟩ : ∃ k, ext.fuel = k + 3 := ⟨ext.fuel - 3, by omega⟩
  have hE := atanE_pos n
  have hδ : (0 : ℝ) < 4 / 10 ^ 98 := by positivity
  unfold Bd.atan
  rw [hk]
  by_cases h0 : |x.val| ≤ 1 / 2
  · obtain ⟨d, h1, h2⟩ := atan_series x n h0 hn
    refine ⟨d, by rw [show k + 3 = (k + 2) + 1 by rfl, atanRec_small ext n _ x h0, h1], h2.trans ?_⟩
    have : (0 : ℝ) < 24 / 10 ^ 98 := by positivity
    linarith
  push Not at h0
  obtain ⟨r, y, hr, hy, hye⟩ := atan_step ext hs x
  have hred := atan_reduced_le (x.val : ℝ)
  have hye' : |(y.val : ℝ) - (x.val : ℝ) / (1 + √(1 + (x.val : ℝ) ^ 2))| ≤ 4 / 10 ^ 98 := by nlinarith
  by_cases h1 : |y.val| ≤ 1 / 2
  · obtain ⟨d, h2, h3⟩ := atan_series y n h1 hn
    refine ⟨d * Dec.two, atanRec_big ext n (k + 2) x r y d h0 hr hy ?_, ?_⟩
    · rw [show k + 2 = (k + 1) + 1 by rfl, atanRec_small ext n _ y h1, h2]
    · have h4 := step_error _ _ _ _ _ hye' h3
      rw [val_mul, val_two]
      push_cast
      have : (24 : ℝ) / 10 ^ 98 = 6 * (4 / 10 ^ 98) := by ring
      linarith
  push Not at h1
  obtain ⟨r2, y2, hr2, hy2, hye2⟩ := atan_step ext hs y
  have hyle : |(y.val : ℝ)| ≤ 1.01 := by
    have h5 := abs_add_le ((y.val : ℝ) - (x.val : ℝ) / (1 + √(1 + (x.val : ℝ) ^ 2))) ((x.val : ℝ) / (1 + √(1 + (x.val : ℝ) ^ 2)))
    rw [sub_add_cancel] at h5
    have : (4 : ℝ) / 10 ^ 98 ≤ 0.01 := by norm_num
    linarith
  have hred2 := atan_reduced_le2 (y.val : ℝ) hyle
  have hye2' : |(y2.val : ℝ) - (y.val : ℝ) / (1 + √(1 + (y.val : ℝ) ^ 2))| ≤ 4 / 10 ^ 98 := by
    have h5 : 4 / 10 ^ 98 * |(y.val : ℝ) / (1 + √(1 + (y.val : ℝ) ^ 2))| ≤ 4 / 10 ^ 98 * 1 := by
      gcongr; linarith
    linarith
  have h2 : |y2.val| ≤ 1 / 2 := by
    have h5 := abs_add_le ((y2.val : ℝ) - (y.val : ℝ) / (1 + √(1 + (y.val : ℝ) ^ 2))) ((y.val : ℝ) / (1 + √(1 + (y.val : ℝ) ^ 2)))
    rw [sub_add_cancel] at h5
    have : (4 : ℝ) / 10 ^ 98 ≤ 0.01 := by norm_num
    have h6 : |(y2.val : ℝ)| ≤ ((1 / 2 : ℚ) : ℝ) := by push_cast; linarith
    have h7 : ((|y2.val| : ℚ) : ℝ) ≤ ((1 / 2 : ℚ) : ℝ) := by push_cast at *; linarith
    exact_mod_cast h7
  obtain ⟨d, h3, h4⟩ := atan_series y2 n h2 hn
  refine ⟨d * Dec.two * Dec.two, atanRec_big ext n (k + 2) x r y _ h0 hr hy
    (atanRec_big ext n (k + 1) y r2 y2 d h1 hr2 hy2 ?_), ?_⟩
  · rw [atanRec_small ext n _ y2 h2, h3]
  · have h5 := step_error _ _ _ _ _ hye2' h4
    have h6 := step_error _ _ _ _ _ hye' h5
    rw [val_mul, val_mul, val_two]
    push_cast
    have : (24 : ℝ) / 10 ^ 98 = 6 * (4 / 10 ^ 98) := by ring
    linarith

end Bd
end Verif

import Verif.Lemmas.AsinSeries
import Verif.Lemmas.Pi

/-! # Arcsine and arccosine -/

namespace Verif
namespace Bd
open Dec

/-- Relative error of a decimal division, over the reals. -/
theorem div_real (a b : Dec) (hb : b.val ≠ 0) :
    ∃ q, Dec.div a b = .ok q ∧ |(q.val : ℝ) - (a.val : ℝ) / (b.val : ℝ)| ≤ 1 / 10 ^ 99 * |(a.val : ℝ) / (b.val : ℝ)| := by
  obtain ⟨q, h1, h2⟩ := (div_spec a b).2 hb
  refine ⟨q, h1, ?_⟩
  have h3 : ((|q.val - a.val / b.val| : ℚ) : ℝ) ≤ ((divEps * |a.val / b.val| : ℚ) : ℝ) := by exact_mod_cast h2
  push_cast at h3
  refine h3.trans ?_
  gcongr
  unfold divEps
  norm_num

/-- Error of `pi`. -/
noncomputable def piE (n : ℕ) : ℝ := if n < 100 then 1 / 2 / 10 ^ n else 20 * atanE n + 1 / 10 ^ 99

theorem pi_error (ext : BdExt) (hf : 1 ≤ ext.fuel) (n : ℕ) (hn : 8 * n + 9 ≤ 30001) :
    ∃ d, pi ext n = .ok d ∧ |(d.val : ℝ) - Real.pi| ≤ piE n := by
  unfold piE
  by_cases h : n < 100
  · refine ⟨round piDec n, ?_, ?_⟩
    · unfold pi
      rw [if_pos (by exact_mod_cast h), parse_pi]
      rfl
    · rw [if_pos h]
      have h1 := pi_round_rat ⟨n, h⟩
      have h2 := pi_close
      have h3 : |((round piDec (n : Int)).val : ℝ) - piDec.val| + 1 / 10 ^ 150 < 1 / 2 / 10 ^ n := by
        have : ((|(round piDec (n : Int)).val - piDec.val| + 1 / 10 ^ 150 : ℚ) : ℝ) < ((1 / 2 / 10 ^ n : ℚ) : ℝ) := by
          exact_mod_cast h1
        push_cast at this
        exact this
      have h4 := abs_sub_le ((round piDec (n : Int)).val : ℝ) piDec.val Real.pi
      have h5 : (2 : ℝ) / 10 ^ 153 ≤ 1 / 10 ^ 150 := by norm_num
      linarith
  · rw [if_neg h]
    exact machin_error ext hf n (by omega) hn

/-- Error bound of the arcsine series on `[-1/2, 1/2]`. -/
theorem asin_series (x : Dec) (n : ℕ) (hx : |x.val| ≤ 1 / 2) (hn : 8 * n + 9 ≤ 30001) :
    ∃ d, maclaurin x n asinTerm (Dec.one, Dec.one) = .ok d ∧
      |(d.val : ℝ) - Real.arcsin (x.val : ℝ)| ≤ atanE n + 2 / 10 ^ 99 := by
  have hxR : |(x.val : ℝ)| < 1 := by
    have : ((|x.val| : ℚ) : ℝ) ≤ ((1 / 2 : ℚ) : ℝ) := by exact_mod_cast hx
    push_cast at this
    linarith
  obtain ⟨d, h1, h2⟩ := geoLike_error x n asinTerm asinC geoLike_asin (3 * divEps)
    (by linarith [divEps_nonneg]) (by unfold divEps; norm_num) _ follows_asin (Dec.one, Dec.one)
    ⟨by simp, by simp [cbr]⟩ (1 / 2) 2 (by norm_num) (by norm_num) hx (8 * n + 9)
    (by push_cast; linarith [(by positivity : (0 : ℚ) ≤ n)]) (two_pow_small n _ (by omega)) hn
    (by
      rw [show 8 * n + 9 = 2 * (4 * n + 4) + 1 by ring, asinC_odd]
      have := cbr_pos (4 * n + 4)
      positivity) _ (hasSum_asin _ hxR)
  refine ⟨d, h1, h2.trans ?_⟩
  unfold atanE
  have e : ((3 * divEps : ℚ) : ℝ) * ((2 : ℚ) : ℝ) = 3 / 10 ^ 99 := by unfold divEps; norm_num
  rw [e]
  have hu : (0 : ℝ) < 1 / 100 ^ n := by positivity
  push_cast
  have : (8 * (n : ℝ) + 9) * 2 + (8 * n + 9) / 2 + 2 * (1 + (8 * n + 9) * 2 / 2) ≤ 36 * n + 43 := by linarith
  have := mul_le_mul_of_nonneg_left this hu.le
  have e2 : (3 : ℝ) / 10 ^ 99 = 1 / 10 ^ 99 + 2 / 10 ^ 99 := by ring
  linarith

theorem arcsin_large (x : ℝ) (h0 : 0 < x) : Real.arcsin x = Real.pi / 2 - Real.arctan (√(1 - x ^ 2) / x) := by
  rw [Real.arcsin_eq_pi_div_two_sub_arccos, Real.arccos_eq_arctan h0]

theorem arcsin_sign (x : ℝ) (h0 : x ≠ 0) : Real.arcsin x =
    (Real.pi / 2 - Real.arctan (√(1 - x ^ 2) / |x|)) * (if 0 < x then 1 else -1) := by
  rcases lt_or_gt_of_ne h0 with h | h
  · rw [if_neg (by linarith), abs_of_neg h]
    have h1 := arcsin_large (-x) (by linarith)
    rw [Real.arcsin_neg, neg_sq] at h1
    linarith
  · rw [if_pos h, abs_of_pos h, arcsin_large x h, mul_one]

/-- Error of `asin` on `[-1, 1]`. -/
noncomputable def asinE (n : ℕ) : ℝ := 1 / 2 * piE n + 4 * atanE n + 100 / 10 ^ 98

theorem piE_pos (n : ℕ) : 0 < piE n := by
  unfold piE
  have := atanE_pos n
  split_ifs <;> positivity

theorem asin_error (ext : BdExt) (hs : SqrtOk ext) (hfuel : 3 ≤ ext.fuel) (x : Dec) (n : ℕ) (hx : |x.val| ≤ 1)
    (hn : 8 * n + 9 ≤ 30001) :
    ∃ d, Bd.asin ext x n = .ok d ∧ |(d.val : ℝ) - Real.arcsin (x.val : ℝ)| ≤ asinE n := by
  have hE := atanE_pos n
  have hpE := piE_pos n
  unfold asinE
  unfold Bd.asin
  by_cases h : |x.val| ≤ 1 / 2
  · rw [if_neg (by rw [half_lt]; linarith)]
    obtain ⟨d, h1, h2⟩ := asin_series x n h hn
    refine ⟨d, h1, h2.trans ?_⟩
    have : (2 : ℝ) / 10 ^ 99 ≤ 100 / 10 ^ 98 := by norm_num
    linarith
  push Not at h
  rw [if_pos ((half_lt x).2 h)]
  obtain ⟨p, hp, hpe⟩ := pi_error ext (by omega) n hn
  have hx0 : x.val ≠ 0 := by intro h0; rw [h0] at h; norm_num at h
  obtain ⟨r, hr, hre⟩ := hs.ok (Dec.one - x * x) (by
    rw [val_sub, val_mul, val_one]
    have : x.val * x.val ≤ 1 := by rw [← abs_mul_abs_self]; nlinarith [abs_nonneg x.val]
    linarith)
  have hv : ((Dec.one - x * x).val : ℝ) = 1 - (x.val : ℝ) ^ 2 := by simp [sq]
  rw [hv] at hre
  have habs : x.abs.val ≠ 0 := by rw [val_abs]; exact abs_ne_zero.2 hx0
  obtain ⟨y, hy, hye⟩ := div_real r x.abs habs
  obtain ⟨a, ha, hae⟩ := atan_error ext hs hfuel y n hn
  have hsg : (signum x).val = if 0 < x.val then 1 else -1 := by
    rw [val_signum]; split_ifs <;> rfl
  refine ⟨(p * Dec.halfF64 - a) * x.signum, ?_, ?_⟩
  · simp only [hp, hr, hy, ha, Res.ok_bind, Res.unwrapOpt]; rfl
  have hxR0 : (x.val : ℝ) ≠ 0 := by exact_mod_cast hx0
  rw [arcsin_sign _ hxR0]
  have hsgR : ((signum x).val : ℝ) = if 0 < (x.val : ℝ) then 1 else -1 := by
    rw [hsg]
    by_cases h0 : 0 < x.val
    · rw [if_pos h0, if_pos (by exact_mod_cast h0)]; norm_num
    · rw [if_neg h0, if_neg (by exact_mod_cast h0)]; norm_num
  have e1 : (((p * Dec.halfF64 - a) * x.signum).val : ℝ) = ((p.val : ℝ) / 2 - a.val) * (signum x).val := by
    rw [val_mul, val_sub, val_mul, val_halfF64]; push_cast; ring
  rw [e1, hsgR, ← sub_mul, abs_mul]
  have e2 : |(if 0 < (x.val : ℝ) then (1 : ℝ) else -1)| = 1 := by split_ifs <;> simp
  rw [e2, mul_one]
  have hva : ((x.abs).val : ℝ) = |(x.val : ℝ)| := by rw [val_abs]; push_cast; rfl
  rw [hva] at hye
  set X := (x.val : ℝ) with hX
  have hXhalf : 1 / 2 ≤ |X| := by
    have : ((1 / 2 : ℚ) : ℝ) < ((|x.val| : ℚ) : ℝ) := by exact_mod_cast h
    push_cast at this; exact this.le
  set S := √(1 - X ^ 2) with hS
  have hS0 : 0 ≤ S := Real.sqrt_nonneg _
  have hS1 : S ≤ 1 := by
    rw [hS]; exact Real.sqrt_le_one.2 (by nlinarith [sq_nonneg X])
  set R := (r.val : ℝ) with hR
  have hη : (1 : ℝ) / 10 ^ 98 ≤ 1 / 100 := by norm_num
  have hη99 : (1 : ℝ) / 10 ^ 99 ≤ 1 / 10 ^ 98 := by norm_num
  have hη0 : (0 : ℝ) < 1 / 10 ^ 99 := by positivity
  rw [show (100 : ℝ) / 10 ^ 98 = 100 * (1 / 10 ^ 98) by ring]
  rw [show (24 : ℝ) / 10 ^ 98 = 24 * (1 / 10 ^ 98) by ring] at hae
  clear_value S
  generalize (1 : ℝ) / 10 ^ 98 = η at *
  generalize (1 : ℝ) / 10 ^ 99 = ζ at *
  have hXa := abs_abs X
  have hX0 : 0 < |X| := by linarith
  generalize |X| = W at *
  have hd1 : |R / W - S / W| ≤ 2 * η := by
    rw [← sub_div, abs_div, hXa, div_le_iff₀ hX0]
    nlinarith
  have hSX : S / W ≤ 2 := by rw [div_le_iff₀ hX0]; linarith
  have hSX0 : 0 ≤ S / W := by positivity
  have hRX : |R / W| ≤ 3 := by
    have := abs_add_le (R / W - S / W) (S / W)
    rw [sub_add_cancel, abs_of_nonneg hSX0] at this
    linarith
  have hd2 : |(y.val : ℝ) - S / W| ≤ 5 * η := by
    have := abs_sub_le (y.val : ℝ) (R / W) (S / W)
    have h3 : ζ * |R / W| ≤ ζ * 3 := mul_le_mul_of_nonneg_left hRX hη0.le
    linarith
  have hl := (arctan_lipschitz (y.val : ℝ) (S / W)).trans hd2
  have ht : (p.val : ℝ) / 2 - a.val - (Real.pi / 2 - Real.arctan (S / W)) =
      1 / 2 * (p.val - Real.pi) - (a.val - Real.arctan y.val) - (Real.arctan y.val - Real.arctan (S / W)) := by ring
  rw [ht]
  have b1 := abs_sub (1 / 2 * ((p.val : ℝ) - Real.pi) - (a.val - Real.arctan y.val)) (Real.arctan y.val - Real.arctan (S / W))
  have b2 := abs_sub (1 / 2 * ((p.val : ℝ) - Real.pi)) ((a.val : ℝ) - Real.arctan y.val)
  have b3 : |1 / 2 * ((p.val : ℝ) - Real.pi)| ≤ 1 / 2 * piE n := by
    rw [abs_mul, abs_of_pos (by norm_num : (0 : ℝ) < 1 / 2)]; linarith
  linarith

/-- Outside `[-1, 1]` arcsine panics on the square root of a negative number. -/
theorem asin_panic (ext : BdExt) (hs : SqrtOk ext) (hfuel : 1 ≤ ext.fuel) (x : Dec) (n : ℕ) (hx : 1 < |x.val|)
    (hn : 8 * n + 9 ≤ 30001) : Bd.asin ext x n = .panic := by
  obtain ⟨p, hp, _⟩ := pi_error ext hfuel n hn
  unfold Bd.asin
  rw [if_pos ((half_lt x).2 (by linarith))]
  have hneg : ext.sqrt (Dec.one - x * x) = none := hs.neg _ (by
    rw [val_sub, val_mul, val_one, ← abs_mul_abs_self]; nlinarith)
  simp only [hp, hneg, Res.ok_bind, Res.unwrapOpt]
  rfl

theorem acos_error (ext : BdExt) (hs : SqrtOk ext) (hfuel : 3 ≤ ext.fuel) (x : Dec) (n : ℕ) (hx : |x.val| ≤ 1)
    (hn : 8 * n + 9 ≤ 30001) :
    ∃ d, Bd.acos ext x n = .ok d ∧ |(d.val : ℝ) - Real.arccos (x.val : ℝ)| ≤ asinE n + 1 / 2 * piE n + 200 / 10 ^ 98 := by
  obtain ⟨p, hp, hpe⟩ := pi_error ext (by omega) n hn
  obtain ⟨a, ha, hae⟩ := asin_error ext hs hfuel x n hx hn
  obtain ⟨h, hh, hhe⟩ := div_real p Dec.two (by simp)
  refine ⟨h - a, ?_, ?_⟩
  · unfold Bd.acos
    simp only [hp, hh, ha, Res.ok_bind]; rfl
  rw [Real.arccos, val_sub]
  push_cast
  have hv2 : ((Dec.two).val : ℝ) = 2 := by simp
  rw [hv2] at hhe
  have hpE : piE n ≤ 60 * atanE n + 60 := by
    have := atanE_pos n
    unfold piE
    split_ifs
    · have h1 : (1 : ℝ) / 2 / 10 ^ n ≤ 1 / 2 := by
        rw [div_le_iff₀ (by positivity)]
        have : (1 : ℝ) ≤ 10 ^ n := one_le_pow₀ (by norm_num)
        linarith
      linarith
    · have : (1 : ℝ) / 10 ^ 99 ≤ 1 := by norm_num
      linarith
  have hE : atanE n ≤ 45 := by
    unfold atanE
    have h1 : (1 : ℝ) / 20 / 10 ^ n ≤ 1 / 20 := by
      rw [div_le_iff₀ (by positivity)]
      have : (1 : ℝ) ≤ 10 ^ n := one_le_pow₀ (by norm_num)
      linarith
    have h2 : 1 / 100 ^ n * (36 * (n : ℝ) + 43) ≤ 43 := by
      rw [div_mul_eq_mul_div, one_mul, div_le_iff₀ (by positivity)]
      have : (n : ℝ) + 1 ≤ 100 ^ n := by
        have := Nat.lt_pow_self (n := n) (a := 100) (by norm_num)
        have h3 : n + 1 ≤ 100 ^ n := this
        exact_mod_cast h3
      have hn0 : (0 : ℝ) ≤ n := by positivity
      nlinarith
    have h3 : (1 : ℝ) / 10 ^ 99 ≤ 1 := by norm_num
    linarith
  have hpi := Real.pi_lt_d2
  have hpi0 := Real.pi_pos
  have hp2 : |(p.val : ℝ) / 2| ≤ 1400 := by
    rw [abs_div, abs_of_pos (by norm_num : (0 : ℝ) < 2)]
    have := abs_add_le ((p.val : ℝ) - Real.pi) Real.pi
    rw [sub_add_cancel, abs_of_pos hpi0] at this
    linarith
  have hsmall : 1 / 10 ^ 99 * |(p.val : ℝ) / 2| ≤ 200 / 10 ^ 98 := by
    calc 1 / 10 ^ 99 * |(p.val : ℝ) / 2| ≤ 1 / 10 ^ 99 * 1400 := by gcongr
      _ ≤ _ := by norm_num
  have ht : (h.val : ℝ) - a.val - (Real.pi / 2 - Real.arcsin x.val) =
      (h.val - p.val / 2) + 1 / 2 * (p.val - Real.pi) - (a.val - Real.arcsin x.val) := by ring
  rw [ht]
  have b1 := abs_sub ((h.val : ℝ) - p.val / 2 + 1 / 2 * (p.val - Real.pi)) (a.val - Real.arcsin x.val)
  have b2 := abs_add_le ((h.val : ℝ) - p.val / 2) (1 / 2 * (p.val - Real.pi))
  have b3 : |1 / 2 * ((p.val : ℝ) - Real.pi)| ≤ 1 / 2 * piE n := by
    rw [abs_mul, abs_of_pos (by norm_num : (0 : ℝ) < 1 / 2)]; linarith
  linarith

end Bd
end Verif

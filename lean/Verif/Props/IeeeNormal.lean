import Verif.Props.IeeeSpecialRoot
import Verif.Props.IeeeExamples
import Verif.Props.GenStats

/-! # C83: the normal density in float arithmetic -/

namespace Verif
open Gen RExpr

theorem std_chain {ε z p q y : ℝ} (hε0 : 0 ≤ ε) (hε : ε ≤ 1 / 2 ^ 24) (a1 : |p - z| ≤ ε * (|z| + 1 / 2 ^ 26)) (a2 : |q - p| ≤ ε * (1001 / 1000) * |p|) (a3 : |y - q| ≤ ε * (|q| + 1 / 2 ^ 26)) :
    |y - z| ≤ ε * (31 / 10 * |z| + 1 / 2 ^ 20) := by
  have b1 := abs_near_le a1 le_rfl
  have b2 := abs_near_le a2 le_rfl
  norm_num at *
  have hz := abs_nonneg z
  have hp := abs_nonneg p
  have c1 : |p| ≤ 1001 / 1000 * |z| + 1 / 67108864 := by nlinarith
  have c2 : |q| ≤ 1003 / 1000 * |z| + 1 / 33554432 := by nlinarith
  have := near_trans a3 (near_trans a2 a1)
  have i1 := mul_le_mul_of_nonneg_left c1 hε0
  have i2 := mul_le_mul_of_nonneg_left c2 hε0
  nlinarith [mul_nonneg hε0 hz]

/-- The standardised argument. -/
theorem dnorm_std {ε τ d d' s r y : ℝ} (hε0 : 0 ≤ ε) (hε : ε ≤ 1 / 2 ^ 24) (hτ0 : 0 ≤ τ) (hs : 0 < s) (hτ : τ ≤ s / 2 ^ 26) (hτ1 : τ ≤ 1 / s / 2 ^ 26) (hτ2 : τ ≤ 1 / 2 ^ 26)
    (h1 : |d' - d| ≤ ε * (|d| + τ)) (h2 : |r - 1 / s| ≤ ε * (|1 / s| + τ)) (h3 : |y - d' * r| ≤ ε * (|d' * r| + τ)) :
    |y - d / s| ≤ ε * (31 / 10 * |d / s| + 1 / 2 ^ 20) ∧ |d' * r - d / s| ≤ ε * (31 / 10 * |d / s| + 1 / 2 ^ 20) := by
  have hs' : 0 < 1 / s := by positivity
  have a1 : |d' / s - d / s| ≤ ε * (|d / s| + 1 / 2 ^ 26) := by
    rw [← sub_div, abs_div, abs_of_pos hs, div_le_iff₀ hs]
    refine h1.trans (le_of_le_of_eq (mul_le_mul_of_nonneg_left (add_le_add_right hτ _) hε0) ?_)
    rw [abs_div, abs_of_pos hs]
    field_simp
  have a2 : |d' * r - d' / s| ≤ ε * (1001 / 1000) * |d' / s| := by
    rw [show d' * r - d' / s = d' * (r - 1 / s) by ring, abs_mul, abs_div, abs_of_pos hs]
    rw [abs_of_pos hs'] at h2
    calc |d'| * |r - 1 / s| ≤ |d'| * (ε * (1001 / 1000 * (1 / s))) := mul_le_mul_of_nonneg_left (h2.trans (mul_le_mul_of_nonneg_left (by norm_num at hτ1 ⊢; linarith) hε0)) (abs_nonneg _)
      _ = _ := by field_simp
  exact ⟨std_chain hε0 hε a1 a2 (h3.trans (mul_le_mul_of_nonneg_left (by linarith) hε0)), std_chain hε0 hε a1 a2 (by rw [sub_self, abs_zero]; positivity)⟩

/-- The exponent of the density. -/
theorem dnorm_exponent {ε τ z y k κ v e : ℝ} (hε0 : 0 ≤ ε) (hε : ε ≤ 1 / 2 ^ 24) (hτ : τ ≤ 1 / 2 ^ 26) (hy : |y - z| ≤ ε * (31 / 10 * |z| + 1 / 2 ^ 20)) (hκ : |κ| ≤ 73 / 100)
    (hk : |k - κ| ≤ 2 * ε) (hv : |v - k * y| ≤ ε * (|k * y| + τ)) (he : |e - v * y| ≤ ε * (|v * y| + τ)) : |e - κ * z ^ 2| ≤ ε * (9 * z ^ 2 + 1) := by
  have hz := abs_nonneg z
  have hz2 : |z| * |z| = z ^ 2 := by rw [← abs_mul, ← sq, abs_of_nonneg (sq_nonneg z)]
  have hε1 : ε ≤ 1 / 10 ^ 7 := hε.trans (by norm_num)
  norm_num at hy hτ hε1
  have y1 : |y| ≤ 101 / 100 * |z| + 1 / 10 ^ 6 := by
    have := abs_near_le hy le_rfl
    nlinarith
  have k1 : |k| ≤ 74 / 100 := by
    have := abs_near_le hk hκ
    linarith
  have c1 : |k * y - κ * z| ≤ ε * (44 / 10 * |z| + 1 / 10 ^ 5) := by
    rw [show k * y - κ * z = (k - κ) * y + κ * (y - z) by ring]
    refine (abs_add_le _ _).trans ?_
    rw [abs_mul, abs_mul]
    have i1 := mul_le_mul hk y1 (abs_nonneg _) (by positivity)
    have i2 := mul_le_mul hκ hy (abs_nonneg _) (by norm_num)
    nlinarith [mul_nonneg hε0 hz]
  have c2 : |k * y| ≤ 75 / 100 * |z| + 1 / 10 ^ 5 := by
    rw [abs_mul]
    have i1 := mul_le_mul k1 y1 (abs_nonneg _) (by norm_num)
    linarith
  have c3 : |v - κ * z| ≤ ε * (52 / 10 * |z| + 1 / 10 ^ 4) := by
    refine (near_trans hv c1).trans ?_
    have := mul_le_mul_of_nonneg_left (add_le_add c2 hτ) hε0
    nlinarith [mul_nonneg hε0 hz]
  have v1 : |v| ≤ 75 / 100 * |z| + 1 / 10 ^ 4 := by
    have i1 : |κ * z| ≤ 73 / 100 * |z| := by rw [abs_mul]; exact mul_le_mul_of_nonneg_right hκ hz
    have := abs_near_le c3 i1
    nlinarith
  have c4 : |v * y - κ * z ^ 2| ≤ ε * (76 / 10 * z ^ 2 + 1 / 100 * |z| + 1 / 1000) := by
    rw [show v * y - κ * z ^ 2 = (v - κ * z) * y + κ * (z * (y - z)) by ring]
    refine (abs_add_le _ _).trans ?_
    rw [abs_mul, abs_mul, abs_mul]
    have i1 := mul_le_mul c3 y1 (abs_nonneg _) (by positivity)
    have i2 := mul_le_mul hκ (mul_le_mul_of_nonneg_left hy hz) (by positivity) (by norm_num)
    have e1 : ε * (52 / 10 * |z| + 1 / 10 ^ 4) * (101 / 100 * |z| + 1 / 10 ^ 6) = ε * (52 / 10 * (101 / 100) * z ^ 2 + (52 / 10 / 10 ^ 6 + 101 / 100 / 10 ^ 4) * |z| + 1 / 10 ^ 10) := by rw [← hz2]; ring
    have e2 : 73 / 100 * (|z| * (ε * (31 / 10 * |z| + 1 / 1048576))) = ε * (73 / 100 * (31 / 10) * z ^ 2 + 73 / 100 / 1048576 * |z|) := by rw [← hz2]; ring
    rw [e1] at i1
    rw [e2] at i2
    refine (add_le_add i1 i2).trans ?_
    rw [← mul_add]
    exact mul_le_mul_of_nonneg_left (by nlinarith [sq_nonneg z]) hε0
  have c5 : |v * y| ≤ 76 / 100 * z ^ 2 + 1 / 100 * |z| + 1 / 1000 := by
    rw [abs_mul]
    have i1 := mul_le_mul v1 y1 (abs_nonneg _) (by positivity)
    rw [← hz2]
    nlinarith
  refine (near_trans he c4).trans ?_
  rw [← mul_add]
  refine mul_le_mul_of_nonneg_left ?_ hε0
  nlinarith [sq_nonneg (|z| - 1), sq_nonneg z]

/-- The factor before the exponential. -/
theorem dnorm_factor {ε τ i r c c' q : ℝ} (hε0 : 0 ≤ ε) (hε : ε ≤ 1 / 2 ^ 24) (hi : 0 < i) (hτ : τ ≤ i / 2 ^ 26) (h1 : |r - i| ≤ ε * (i + τ)) (hc1 : 39 / 100 ≤ c) (hc2 : c ≤ 2 / 5)
    (hc : |c' - c| ≤ ε / 2) (hq : |q - r * c'| ≤ ε * (|r * c'| + τ)) : |q - i * c| ≤ 36 / 10 * ε * (i * c) := by
  norm_num at hε hτ
  have a1 : |r - i| ≤ ε * (1001 / 1000 * i) := h1.trans (mul_le_mul_of_nonneg_left (by linarith) hε0)
  have c1 : |c'| ≤ 401 / 1000 := by
    have := abs_near_le hc (abs_of_pos (by linarith : 0 < c)).le
    linarith
  have r1 : |r| ≤ 1001 / 1000 * i := by
    have := abs_near_le a1 (abs_of_pos hi).le
    nlinarith
  have b1 : |r * c' - i * c| ≤ ε * (91 / 100 * i) := by
    rw [show r * c' - i * c = (r - i) * c' + i * (c' - c) by ring]
    refine (abs_add_le _ _).trans ?_
    rw [abs_mul, abs_mul, abs_of_pos hi]
    have i1 := mul_le_mul a1 c1 (abs_nonneg _) (by positivity)
    have i2 := mul_le_mul_of_nonneg_left hc hi.le
    nlinarith [mul_nonneg hε0 hi.le]
  have b2 : |r * c'| ≤ 402 / 1000 * i := by
    rw [abs_mul]
    have := mul_le_mul r1 c1 (abs_nonneg _) (by positivity)
    linarith
  have b3 := mul_le_mul_of_nonneg_left (add_le_add b2 hτ) hε0
  refine (near_trans (hq.trans b3) b1).trans ?_
  have : 39 / 100 * (ε * i) ≤ c * (ε * i) := mul_le_mul_of_nonneg_right hc1 (by positivity)
  nlinarith [mul_nonneg hε0 hi.le]

/-- The product of the factor and the exponential. -/
theorem dnorm_product {ε τ A q E Y η z : ℝ} (hε0 : 0 ≤ ε) (hε : ε ≤ 1 / 2 ^ 24) (hτ0 : 0 ≤ τ) (hA : 0 < A) (hE : 0 < E) (hη0 : 0 ≤ η) (hη : η ≤ 9 / 10) (hq : |q - A| ≤ 36 / 10 * ε * A)
    (hY0 : 0 ≤ Y) (hY : |Y - E| ≤ η * E + 2 * τ) (hz : |z - q * Y| ≤ ε * (|q * Y| + τ)) : |z - A * E| ≤ (η + 9 * ε) * (A * E) + τ * (21 / 10 * A + 1) := by
  norm_num at hε
  have hAE : 0 < A * E := by positivity
  have y1 : Y ≤ 19 / 10 * E + 2 * τ := by
    have := (abs_le.1 hY).2
    nlinarith
  have b1 : |q * Y - A * E| ≤ 36 / 10 * ε * A * (19 / 10 * E + 2 * τ) + A * (η * E + 2 * τ) := by
    rw [show q * Y - A * E = (q - A) * Y + A * (Y - E) by ring]
    refine (abs_add_le _ _).trans ?_
    rw [abs_mul, abs_mul, abs_of_pos hA, abs_of_nonneg hY0]
    exact add_le_add (mul_le_mul hq y1 hY0 (by positivity)) (mul_le_mul_of_nonneg_left hY hA.le)
  have q1 : |q| ≤ 1001 / 1000 * A := by
    have := abs_near_le hq (abs_of_pos hA).le
    nlinarith
  have b2 : |q * Y| ≤ 1001 / 1000 * A * (19 / 10 * E + 2 * τ) := by
    rw [abs_mul, abs_of_nonneg hY0]
    exact mul_le_mul q1 y1 hY0 (by positivity)
  have b3 := mul_le_mul_of_nonneg_left (add_le_add_left b2 τ) hε0
  refine (near_trans (hz.trans b3) b1).trans ?_
  have t1 : ε * (A * τ) ≤ 1 / 1000 * (A * τ) := mul_le_mul_of_nonneg_right (by linarith) (by positivity)
  have t2 : ε * τ ≤ 1 * τ := mul_le_mul_of_nonneg_right (by linarith) hτ0
  nlinarith [mul_nonneg hε0 hAE.le, mul_nonneg hA.le hτ0]

section
variable {ext : BdExt} {fx : FloatExt} {b32 : Bool} {P : Gen.Parts} {calls : String → List RV → RV} {g : Name → RV} {u w : ℝ}

theorem tiny_le_100 (b32 : Bool) : (fmtOf b32).tiny ≤ 1 / 2 ^ 126 := by
  have hb : 127 ≤ (fmtOf b32).bias := by cases b32 <;> decide
  unfold FloatFmt.tiny
  calc (2 : ℝ) ^ (1 - ((fmtOf b32).bias : ℤ)) ≤ (2 : ℝ) ^ (-126 : ℤ) := zpow_le_zpow_right₀ (by norm_num) (by omega)
    _ = _ := by norm_num

theorem two_pow_density (z : ℝ) : (2 : ℝ) ^ (-(1 / (2 * Real.log 2)) * z ^ 2) = Real.exp (-z ^ 2 / 2) := by
  have h : Real.log 2 ≠ 0 := (Real.log_pos (by norm_num)).ne'
  rw [Real.rpow_def_of_pos (by norm_num)]
  congr 1
  field_simp

theorem neg_two_le {v y b : ℝ} (hb : b ≤ 1023) (h : (v ≤ -256 ∧ 512 ≤ y) ∨ (256 ≤ v ∧ y ≤ -512)) : v * y ≤ -b + 1 / 2 := by
  rcases h with h | h <;> nlinarith

/-- Far from the mean the exponential underflows. -/
theorem LibraryOk.dnorm_far (h : LibraryOk ext fx b32 P calls g u w) {k q : ℝ} (hk1 : -1 ≤ k) (hk2 : k ≤ -(1 / 2)) (hq : 512 ≤ |q|) :
    ∃ Y, calls "exp2" [binIE (fmtOf b32) .mul (binIE (fmtOf b32) .mul (.f k) ((fmtOf b32).rne q)) ((fmtOf b32).rne q)] = .f Y ∧ 0 ≤ Y ∧ Y ≤ 3 / 2 * (fmtOf b32).tiny := by
  have hbias := bias_le b32
  have hτ0 := FloatFmt.tiny_pos (F := fmtOf b32)
  have h256 : (fmtOf b32).Repr 256 := by have := repr_two_pow b32 8; norm_num at this; exact this
  have h512 : (fmtOf b32).Repr 512 := by have := repr_two_pow b32 9; norm_num at this; exact this
  have hinf := h.exp2.inf true
  simp only [if_true] at hinf
  by_cases hin : |(fmtOf b32).rnd q| < 2 ^ ((fmtOf b32).bias + 1)
  · have e1 : (fmtOf b32).rne q = .f ((fmtOf b32).rnd q) := by unfold FloatFmt.rne; rw [if_pos hin]
    have hy : 512 ≤ (fmtOf b32).rnd q ∨ (fmtOf b32).rnd q ≤ -512 := by
      rcases le_abs.1 hq with hq | hq
      · exact .inl (FloatFmt.le_rnd h512 hq)
      · exact .inr (FloatFmt.rnd_le h512.neg (by linarith))
    have hyr := FloatFmt.rnd_repr (F := fmtOf b32) q
    rw [e1, binIE_mul]
    generalize (fmtOf b32).rnd q = y at *
    have hky : |(fmtOf b32).rnd (k * y)| < 2 ^ ((fmtOf b32).bias + 1) := by
      refine lt_of_le_of_lt (FloatFmt.abs_rnd_le hyr.abs ?_) hin
      rw [abs_mul]
      have : |k| ≤ 1 := by rw [abs_le]; constructor <;> linarith
      nlinarith [abs_nonneg y]
    have e2 : (fmtOf b32).rne (k * y) = .f ((fmtOf b32).rnd (k * y)) := by unfold FloatFmt.rne; rw [if_pos hky]
    rw [e2, binIE_mul]
    refine h.exp2.under (neg_two_le hbias.1 ?_) (by linarith) ?_
    · rcases hy with hy | hy
      · exact .inl ⟨FloatFmt.rnd_le h256.neg (by nlinarith), hy⟩
      · exact .inr ⟨FloatFmt.le_rnd h256 (by nlinarith), hy⟩
    · refine ⟨-(2 * (fmtOf b32).bias - 1), -1, ?_, ?_, ?_⟩
      · push_cast; ring
      · cases b32 <;> decide
      · cases b32 <;> decide
  · have e1 : (fmtOf b32).rne q = .inf (decide (q < 0)) := by unfold FloatFmt.rne; rw [if_neg hin]
    rw [e1, mulIE_neg_inf _ (by linarith), mulIE_inf_inf, show (!decide (q < 0) ^^ decide (q < 0)) = true by simp, hinf]
    exact ⟨0, rfl, le_rfl, by positivity⟩

/-- The exponential of `dnorm`. -/
theorem LibraryOk.dnorm_exp (h : LibraryOk ext fx b32 P calls g u w) {k d d' s r : ℝ} (hk : |k - -(1 / (2 * Real.log 2))| ≤ 2 * (fmtOf b32).eps) (hs1 : 1 / 2 ^ 100 ≤ s) (hs2 : s ≤ 2 ^ 100)
    (hd : d' = (fmtOf b32).rnd d) (hr : r = (fmtOf b32).rnd (1 / s)) :
    ∃ Y η, calls "exp2" [binIE (fmtOf b32) .mul (binIE (fmtOf b32) .mul (.f k) ((fmtOf b32).rne (d' * r))) ((fmtOf b32).rne (d' * r))] = .f Y ∧ 0 ≤ Y ∧
      |Y - Real.exp (-(d / s) ^ 2 / 2)| ≤ η * Real.exp (-(d / s) ^ 2 / 2) + 2 * (fmtOf b32).tiny ∧ 0 ≤ η ∧ η ≤ 9 / 10 ∧
      η ≤ exp2Bound b32 u w + 2 * ((fmtOf b32).eps * (9 * (d / s) ^ 2 + 1)) := by
  have hF := FloatFmt.wide_fmtOf b32
  have hε0 := FloatFmt.eps_pos (F := fmtOf b32)
  have hε := eps_fmtOf b32
  have hτ0 := FloatFmt.tiny_pos (F := fmtOf b32)
  have hτ := tiny_le_100 b32
  have hs0 : 0 < s := lt_of_lt_of_le (by positivity) hs1
  have hl := inv_log_two
  have hκ : 1 / (2 * Real.log 2) = 1 / 2 * (1 / Real.log 2) := by ring
  have hδ := h.exp2_small
  have hkab := abs_le.1 hk
  have hib : 1 / 2 ^ 100 ≤ 1 / s := one_div_le_one_div_of_le hs0 hs2
  have hstd : ∀ y, |y - d' * r| ≤ (fmtOf b32).eps * (|d' * r| + (fmtOf b32).tiny) → _ := fun y hy => dnorm_std (y := y) hε0.le hε hτ0.le hs0 (by norm_num at hτ hs1 ⊢; linarith)
    (by norm_num at hτ hib ⊢; linarith) (by norm_num at hτ ⊢; linarith) (hd ▸ FloatFmt.rnd_err d) (hr ▸ FloatFmt.rnd_err (1 / s)) hy
  have hq := (hstd (d' * r) (by rw [sub_self, abs_zero]; positivity)).1
  generalize hz : d / s = z at *
  rw [← two_pow_density]
  rcases le_or_gt (z ^ 2) (1 / (40 * (fmtOf b32).eps)) with hz2 | hz2
  · have hε1 : 1 / (2 : ℝ) ^ 53 ≤ (fmtOf b32).eps := by
      have : -53 ≤ -((fmtOf b32).mant : ℤ) - 1 := by cases b32 <;> decide
      calc 1 / (2 : ℝ) ^ 53 = (2 : ℝ) ^ (-53 : ℤ) := by norm_num
        _ ≤ _ := zpow_le_zpow_right₀ (by norm_num) this
    have hz3 : z ^ 2 * (40 * (fmtOf b32).eps) ≤ 1 := by rwa [le_div_iff₀ (by positivity)] at hz2
    have hz4 : |z| ≤ 2 ^ 24 := by
      refine abs_le_of_sq_le_sq ?_ (by positivity)
      have : z ^ 2 * (40 * (1 / 2 ^ 53)) ≤ 1 := le_trans (mul_le_mul_of_nonneg_left (by linarith) (sq_nonneg z)) hz3
      norm_num at this ⊢
      linarith
    have hqb : |d' * r| ≤ 2 ^ 25 := by
      have := abs_near_le hq hz4
      have : (fmtOf b32).eps * (31 / 10 * |z| + 1 / 2 ^ 20) ≤ 1 / 2 ^ 24 * (31 / 10 * 2 ^ 24 + 1 / 2 ^ 20) := mul_le_mul hε (by linarith) (by positivity) (by positivity)
      norm_num at this
      linarith
    have hy := (hstd _ (FloatFmt.rnd_err (d' * r))).1
    rw [rne_small (hqb.trans (by norm_num))]
    generalize hyd : (fmtOf b32).rnd (d' * r) = y at *
    have hyb : |y| ≤ 2 ^ 25 := by rw [← hyd]; exact FloatFmt.abs_rnd_le (repr_two_pow b32 25) hqb
    have hkb : |k| ≤ 1 := by rw [abs_le]; norm_num at hε; constructor <;> linarith
    have h1 : |k * y| ≤ 2 ^ 25 := by rw [abs_mul]; exact (mul_le_mul hkb hyb (abs_nonneg _) zero_le_one).trans (by norm_num)
    rw [binIE_mul, rne_small (h1.trans (by norm_num)), binIE_mul]
    have h2 : |(fmtOf b32).rnd (k * y)| ≤ 2 ^ 25 := FloatFmt.abs_rnd_le (repr_two_pow b32 25) h1
    have h3 : |(fmtOf b32).rnd (k * y) * y| ≤ 2 ^ 50 := by rw [abs_mul]; exact (mul_le_mul h2 hyb (abs_nonneg _) (by positivity)).trans (by norm_num)
    rw [rne_small (h3.trans (by norm_num))]
    have hD := dnorm_exponent hε0.le hε (by norm_num at hτ ⊢; linarith) hy (by rw [abs_neg, abs_of_pos (by linarith)]; linarith) hk (FloatFmt.rnd_err (k * y)) (FloatFmt.rnd_err ((fmtOf b32).rnd (k * y) * y))
    have hD4 : (fmtOf b32).eps * (9 * z ^ 2 + 1) ≤ 1 / 4 := by norm_num at hε; nlinarith
    obtain ⟨Y, e, h0, h1⟩ := h.exp2.any hδ.1 hδ.2 (FloatFmt.rnd_repr _) hD hD4 (by
      have := (bias_le b32).2
      nlinarith [mul_nonneg (by linarith : 0 ≤ 1 / (2 * Real.log 2)) (sq_nonneg z)])
    exact ⟨Y, _, e, h0, h1, add_nonneg hδ.1 (by positivity), by linarith, le_rfl⟩
  · have hz3 : 400000 ≤ z ^ 2 := by
      refine le_trans ?_ hz2.le
      rw [le_div_iff₀ (by positivity)]
      norm_num at hε; linarith
    have hbias := bias_le b32
    have hE : (2 : ℝ) ^ (-(1 / (2 * Real.log 2)) * z ^ 2) ≤ (fmtOf b32).tiny := by
      unfold FloatFmt.tiny
      rw [← Real.rpow_intCast]
      refine Real.rpow_le_rpow_of_exponent_le (by norm_num) ?_
      push_cast
      nlinarith
    have hE0 : (0 : ℝ) < 2 ^ (-(1 / (2 * Real.log 2)) * z ^ 2) := by positivity
    have hkn : k ≤ -(1 / 2) := by norm_num at hε; linarith [hkab.2]
    have hk0 : k < 0 := by linarith
    have hzl : 600 ≤ |z| := by
      rw [← Real.sqrt_sq_eq_abs]
      exact Real.le_sqrt_of_sq_le (by linarith)
    have hqz : |d' * r - z| ≤ 1 / 10 * |z| := hq.trans (by norm_num at hε ⊢; nlinarith)
    obtain ⟨Y, e, h0, h1⟩ := h.dnorm_far (q := d' * r) (by norm_num at hε; linarith [hkab.1]) hkn (by
      have := abs_sub_abs_le_abs_sub z (d' * r)
      rw [abs_sub_comm] at this
      linarith)
    refine ⟨Y, 0, e, h0, ?_, le_rfl, by norm_num, add_nonneg hδ.1 (by positivity)⟩
    rw [abs_le]; constructor <;> linarith

/-- **C83** The normal density in float arithmetic, for every argument and mean and every deviation between `2⁻¹⁰⁰` and `2¹⁰⁰`.  The relative error is that
of `exp2` and a multiple of the squared distance from the mean in deviations. -/
theorem C83_dnorm (h : LibraryOk ext fx b32 P calls g u w) {x m s : ℝ} (hd : |x - m| ≤ 2 ^ (fmtOf b32).bias) (hs1 : 1 / 2 ^ 100 ≤ s) (hs2 : s ≤ 2 ^ 100) :
    ∃ y, calls "dnorm" [.f x, .f m, .f s] = .f y ∧
      |y - normalDensity m s x| ≤ (exp2Bound b32 u w + (fmtOf b32).eps * (18 * ((x - m) / s) ^ 2 + 11)) * normalDensity m s x + (fmtOf b32).tiny * (1 / s + 1) := by
  obtain ⟨k, c, hk0, hc0, hc1, hce, hke, hrun⟩ := h.dnorm_run
  have hF := FloatFmt.wide_fmtOf b32
  have hε0 := FloatFmt.eps_pos (F := fmtOf b32)
  have hε := eps_fmtOf b32
  have hτ0 := FloatFmt.tiny_pos (F := fmtOf b32)
  have hτ := tiny_le_100 b32
  have hδ := h.exp2_small
  have hs0 : 0 < s := lt_of_lt_of_le (by positivity) hs1
  have hib : 1 / 2 ^ 100 ≤ 1 / s := one_div_le_one_div_of_le hs0 hs2
  have hib2 : 1 / s ≤ 2 ^ 100 := by
    have := one_div_le_one_div_of_le (by positivity) hs1
    rwa [one_div_one_div] at this
  have hi0 : 0 < 1 / s := by positivity
  have hrb : |(fmtOf b32).rnd (1 / s)| ≤ 2 ^ 100 := FloatFmt.abs_rnd_le (repr_two_pow b32 100) (by rwa [abs_of_pos hi0])
  have hqb : |(fmtOf b32).rnd (1 / s) * c| ≤ 2 ^ 100 := by
    rw [abs_mul, abs_of_pos hc0]
    exact (mul_le_mul hrb hc1 hc0.le (by positivity)).trans (by norm_num)
  obtain ⟨Y, η, hY, hY0, hYe, hη0, hη1, hη2⟩ := h.dnorm_exp (d := x - m) hke hs1 hs2 rfl rfl
  have hcb := sqrt_recip_bounds
  have e1 : binIE (fmtOf b32) .div (.f 1) (.f s) = .f ((fmtOf b32).rnd (1 / s)) := by rw [binIE_div _ hs0.ne', rne_small (by rwa [abs_of_pos hi0])]
  have e2 : binIE (fmtOf b32) .sub (.f x) (.f m) = .f ((fmtOf b32).rnd (x - m)) := by rw [binIE_sub, FloatFmt.rne_f hF.ok hd]
  have hf := dnorm_factor hε0.le hε hi0 (by norm_num at hτ hib ⊢; linarith) (by have := FloatFmt.rnd_err (F := fmtOf b32) (1 / s); rwa [abs_of_pos hi0] at this) hcb.1 hcb.2 hce
    (FloatFmt.rnd_err ((fmtOf b32).rnd (1 / s) * c))
  have hE0 := Real.exp_pos (-((x - m) / s) ^ 2 / 2)
  have hE1 : Real.exp (-((x - m) / s) ^ 2 / 2) ≤ 1 := Real.exp_le_one_iff.2 (by nlinarith [sq_nonneg ((x - m) / s)])
  have hφ : normalDensity m s x = 1 / s * √(1 / (2 * Real.pi)) * Real.exp (-((x - m) / s) ^ 2 / 2) := by
    rw [normalDensity, one_div (2 * Real.pi), Real.sqrt_inv, show -(x - m) ^ 2 / (2 * s ^ 2) = -((x - m) / s) ^ 2 / 2 by field_simp]
    field_simp
  have hA : 0 < 1 / s * √(1 / (2 * Real.pi)) := mul_pos hi0 (by linarith)
  have hYb : |Y| ≤ 2 := by
    rw [abs_of_nonneg hY0]
    have := (abs_le.1 hYe).2
    norm_num at hτ
    nlinarith
  have hzb : |(fmtOf b32).rnd ((fmtOf b32).rnd (1 / s) * c) * Y| ≤ 2 ^ (fmtOf b32).bias := by
    rw [abs_mul]
    calc _ ≤ (2 : ℝ) ^ 100 * 2 := mul_le_mul (FloatFmt.abs_rnd_le (repr_two_pow b32 100) hqb) hYb (abs_nonneg _) (by positivity)
      _ = 2 ^ 101 := by norm_num
      _ ≤ _ := pow_le_pow_right₀ (by norm_num) (by cases b32 <;> decide)
  have hp := dnorm_product hε0.le hε hτ0.le hA hE0 hη0 hη1 hf hY0 hYe (FloatFmt.rnd_err ((fmtOf b32).rnd ((fmtOf b32).rnd (1 / s) * c) * Y))
  refine ⟨(fmtOf b32).rnd ((fmtOf b32).rnd ((fmtOf b32).rnd (1 / s) * c) * Y), ?_, ?_⟩
  · simp only [hrun, e1, e2, binIE_mul, rne_small hqb, hY, FloatFmt.rne_f hF.ok hzb]
  · rw [hφ]
    refine hp.trans (add_le_add (mul_le_mul_of_nonneg_right (by linarith) (mul_pos hA hE0).le) (mul_le_mul_of_nonneg_left ?_ hτ0.le))
    nlinarith
end

/-- One deviation from the mean. -/
example (b32 : Bool) : ∃ calls, LibraryOk goodExt wideFx b32 (shippedParts goodExt wideFx b32 fun _ => RExpr.num "3.14") calls (bitsIE b32) (fmtOf b32).eps ((fmtOf b32).eps * (fmtOf b32).tiny) ∧
    ∃ y, calls "dnorm" [.f 3, .f 1, .f 2] = .f y ∧ |y - normalDensity 1 2 3| ≤ 31 / 1000 * normalDensity 1 2 3 + 1 / 10 ^ 30 := by
  obtain ⟨calls, h⟩ := libraryOk_exists b32
  obtain ⟨y, h1, h2⟩ := C83_dnorm h (x := 3) (m := 1) (s := 2) (by
    rw [show (|3 - 1| : ℝ) = 2 ^ 1 by norm_num]
    exact pow_le_pow_right₀ (by norm_num) (by cases b32 <;> decide)) (by norm_num) (by norm_num)
  refine ⟨calls, h, y, h1, h2.trans (add_le_add (mul_le_mul_of_nonneg_right ?_ ?_) ?_)⟩
  · have := h.exp2_small.2
    have := eps_fmtOf b32
    norm_num at *
    linarith
  · unfold normalDensity; positivity
  · have := tiny_le_100 b32
    norm_num at *
    linarith

end Verif

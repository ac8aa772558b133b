import Verif.Props.IeeeSpecialRoot

/-!
# C109: `hypot` in float arithmetic

The larger coordinate is taken out of the root, so no square overflows or vanishes, and the result is within five units of the rounding error of the
Euclidean norm for all floats whose norm is at most half the largest power of two.
-/

namespace Verif
open RExpr

section
variable {b32 : Bool} {calls : String → List RV → RV} {g : Name → RV}

/-- The errors of the quotient, its square and the sum. -/
theorem hypot_sum {ε τ t q p s : ℝ} (hε : 0 < ε) (heps : ε ≤ 1 / 10 ^ 7) (hτ0 : 0 < τ) (hτ : τ ≤ 1 / 10 ^ 8) (ht : |t| ≤ 1)
    (hq : |q - t| ≤ ε * (|t| + τ)) (hp : |p - q * q| ≤ ε * (|q * q| + τ)) (hs : |s - (1 + p)| ≤ ε * (1 + p)) : |s - (1 + t ^ 2)| ≤ 26 / 10 * ε * (1 + t ^ 2) := by
  norm_num at heps hτ
  have ht0 := abs_nonneg t
  have htt : |t| ^ 2 = t ^ 2 := sq_abs t
  have ht2 : t ^ 2 ≤ 1 := by rw [← htt]; nlinarith
  have h0 := sq_nonneg t
  have e1 : |q * q - t ^ 2| ≤ ε * (2 * t ^ 2 + 1 / 1000) := by
    have k1 : |q - t| ≤ 2 * ε := by nlinarith
    have k2 : |q + t| ≤ 2 * |t| + 2 * ε := by
      have : q + t = (q - t) + 2 * t := by ring
      rw [this]
      refine (abs_add_le _ _).trans ?_
      rw [abs_mul, abs_two]; linarith
    have k3 : |q * q - t ^ 2| = |q - t| * |q + t| := by rw [← abs_mul]; congr 1; ring
    rw [k3]
    refine (mul_le_mul hq k2 (abs_nonneg _) (by positivity)).trans ?_
    rw [mul_assoc]
    refine mul_le_mul_of_nonneg_left ?_ hε.le
    have : (|t| + τ) * (2 * |t| + 2 * ε) = 2 * |t| ^ 2 + 2 * (ε * |t|) + 2 * (τ * |t|) + 2 * (τ * ε) := by ring
    rw [this, htt]
    have a1 : ε * |t| ≤ ε := mul_le_of_le_one_right hε.le ht
    have a2 : τ * |t| ≤ τ := mul_le_of_le_one_right hτ0.le ht
    have a3 : τ * ε ≤ τ := mul_le_of_le_one_right hτ0.le (by linarith)
    linarith
  have hs1 : ε * (2 * t ^ 2 + 1 / 1000) ≤ 1 / 2000 := by
    have := mul_le_mul heps (by linarith : 2 * t ^ 2 + 1 / 1000 ≤ 3) (by positivity) (by norm_num)
    linarith
  have hqt : q * q ≤ t ^ 2 + 1 / 2000 := by have := (abs_le.1 e1).2; linarith
  have e2 : |p - q * q| ≤ ε * (t ^ 2 + 1 / 1000) := by
    refine hp.trans (mul_le_mul_of_nonneg_left ?_ hε.le)
    rw [abs_of_nonneg (mul_self_nonneg q)]; linarith
  have hs2 : ε * (t ^ 2 + 1 / 1000) ≤ 1 / 2000 := by
    have := mul_le_mul heps (by linarith : t ^ 2 + 1 / 1000 ≤ 3) (by positivity) (by norm_num)
    linarith
  have hpt : p ≤ t ^ 2 + 1 / 1000 := by have := (abs_le.1 e2).2; linarith
  have e3 : |s - (1 + p)| ≤ ε * (1 + t ^ 2 + 1 / 1000) := hs.trans (mul_le_mul_of_nonneg_left (by linarith) hε.le)
  have : s - (1 + t ^ 2) = (s - (1 + p)) + (p - q * q) + (q * q - t ^ 2) := by ring
  rw [this]
  refine (abs_add_three _ _ _).trans ?_
  have a4 : ε * t ^ 2 ≤ ε := mul_le_of_le_one_right hε.le ht2
  linarith

/-- The error of the root. -/
theorem hypot_sqrt {ε T s r : ℝ} (hε : 0 < ε) (heps : ε ≤ 1 / 10 ^ 7) (hT : 1 ≤ T) (hs : 1 ≤ s) (h : |s - T| ≤ 26 / 10 * ε * T) (hr : |r - √s| ≤ ε * √s) : |r - √T| ≤ 37 / 10 * ε * √T := by
  norm_num at heps
  have r1 : 1 ≤ √T := Real.one_le_sqrt.2 hT
  have r2 : 1 ≤ √s := Real.one_le_sqrt.2 hs
  have hTT : √T * √T = T := Real.mul_self_sqrt (by linarith)
  have hss : √s * √s = s := Real.mul_self_sqrt (by linarith)
  have e5 : |√s - √T| ≤ 26 / 10 * ε * √T := by
    have k : |√s - √T| * (√s + √T) = |s - T| := by
      rw [show s - T = (√s - √T) * (√s + √T) by linear_combination hTT - hss, abs_mul, abs_of_nonneg (by linarith : 0 ≤ √s + √T)]
    have k2 : |√s - √T| * √T ≤ 26 / 10 * ε * √T * √T := by
      rw [mul_assoc _ (√T), hTT]
      refine le_trans ?_ h
      rw [← k]
      exact mul_le_mul_of_nonneg_left (by linarith) (abs_nonneg _)
    exact le_of_mul_le_mul_right k2 (by linarith)
  have a1 : ε * √T ≤ 1 / 100 * √T := mul_le_mul_of_nonneg_right (by linarith) (by linarith)
  have e7 : √s ≤ 11 / 10 * √T := by
    have := (abs_le.1 e5).2
    linarith
  have a2 : ε * √s ≤ ε * (11 / 10 * √T) := mul_le_mul_of_nonneg_left e7 hε.le
  have := abs_sub_le r (√s) (√T)
  linarith

/-- The root of one plus the square of the quotient. -/
theorem hypot_root {F : FloatFmt} (heps : F.eps ≤ 1 / 10 ^ 7) (hτ : F.tiny ≤ 1 / 10 ^ 8) (h1 : F.Repr 1) (h2 : F.Repr 2) {t q p s r : ℝ} (ht : |t| ≤ 1) (hq : q = F.rnd t) (hp : p = F.rnd (q * q)) (hs : s = F.rnd (1 + p)) (hr : r = F.rnd √s) :
    |q| ≤ 1 ∧ 0 ≤ p ∧ p ≤ 1 ∧ 1 ≤ s ∧ s ≤ 2 ∧ 1 ≤ r ∧ |r - √(1 + t ^ 2)| ≤ 37 / 10 * F.eps * √(1 + t ^ 2) := by
  have hε := FloatFmt.eps_pos (F := F)
  have hτ0 := FloatFmt.tiny_pos (F := F)
  have hτ1 : F.tiny ≤ 1 := hτ.trans (by norm_num)
  have hq1 : |q| ≤ 1 := by rw [hq]; exact FloatFmt.abs_rnd_le h1 ht
  have hqq : |q * q| ≤ 1 := by rw [abs_mul]; exact mul_le_one₀ hq1 (abs_nonneg q) hq1
  have hp0 : 0 ≤ p := by rw [hp]; exact FloatFmt.le_rnd FloatFmt.repr_zero (mul_self_nonneg q)
  have hp1 : p ≤ 1 := by rw [hp]; exact FloatFmt.rnd_le h1 ((le_abs_self _).trans hqq)
  have hs1 : 1 ≤ s := by rw [hs]; exact FloatFmt.le_rnd h1 (by linarith)
  have hs2 : s ≤ 2 := by rw [hs]; exact FloatFmt.rnd_le h2 (by linarith)
  have r2 : 1 ≤ √s := Real.one_le_sqrt.2 hs1
  have es := FloatFmt.rnd_rel (F := F) (x := 1 + p) (by rw [abs_of_nonneg (by linarith)]; linarith)
  rw [abs_of_nonneg (by linarith : 0 ≤ 1 + p), ← hs] at es
  have er := FloatFmt.rnd_rel (F := F) (x := √s) (by rw [abs_of_nonneg (by linarith)]; linarith)
  rw [abs_of_nonneg (by linarith : 0 ≤ √s), ← hr] at er
  have eq := FloatFmt.rnd_err (F := F) t
  rw [← hq] at eq
  have ep := FloatFmt.rnd_err (F := F) (q * q)
  rw [← hp] at ep
  refine ⟨hq1, hp0, hp1, hs1, hs2, by rw [hr]; exact FloatFmt.le_rnd h1 r2, ?_⟩
  exact hypot_sqrt hε heps (by linarith [sq_nonneg t]) hs1 (hypot_sum hε heps hτ0 hτ ht eq ep es) er

/-- `hypot` of the larger coordinate `w` and the smaller `v`. -/
theorem hypot_steps (hg : BitConsts (fmtOf b32) g) {v w : ℝ} (hw : (fmtOf b32).tiny < |w|) (hv : |v| ≤ |w|) (hb : √(w ^ 2 + v ^ 2) ≤ 2 ^ ((fmtOf b32).bias - 1)) :
    ∃ h, binIE (fmtOf b32) .mul (.f |w|) (methIE (fmtOf b32) "sqrt" (binIE (fmtOf b32) .add (.f 1)
      (binIE (fmtOf b32) .mul (binIE (fmtOf b32) .div (.f v) (.f w)) (binIE (fmtOf b32) .div (.f v) (.f w)))) []) = .f h ∧ (fmtOf b32).Repr h ∧ 0 < h ∧
      |h - √(w ^ 2 + v ^ 2)| ≤ 5 * (fmtOf b32).eps * √(w ^ 2 + v ^ 2) := by
  have hF := FloatFmt.wide_fmtOf b32
  have hε := FloatFmt.eps_pos (F := fmtOf b32)
  have heps := eps_fmtOf b32
  norm_num at heps
  have hτ0 := FloatFmt.tiny_pos (F := fmtOf b32)
  have hw0 : 0 < |w| := hτ0.trans hw
  have hwn : w ≠ 0 := abs_pos.1 hw0
  have ht : |v / w| ≤ 1 := by rw [abs_div]; exact div_le_one_of_le₀ hv hw0.le
  obtain ⟨q, hq⟩ : ∃ q, q = (fmtOf b32).rnd (v / w) := ⟨_, rfl⟩
  obtain ⟨p, hp⟩ : ∃ p, p = (fmtOf b32).rnd (q * q) := ⟨_, rfl⟩
  obtain ⟨s, hs⟩ : ∃ s, s = (fmtOf b32).rnd (1 + p) := ⟨_, rfl⟩
  obtain ⟨r, hr⟩ : ∃ r, r = (fmtOf b32).rnd √s := ⟨_, rfl⟩
  obtain ⟨a1, a2, a3, a4, a5, a6, a7⟩ := hypot_root (by norm_num; linarith) ((FloatFmt.tiny_le hF).trans (by norm_num)) (repr_one b32)
    (by have := repr_two_pow b32 1; rwa [pow_one] at this) ht hq hp hs hr
  have hN : √(w ^ 2 + v ^ 2) = |w| * √(1 + (v / w) ^ 2) := by
    rw [← Real.sqrt_sq_eq_abs, ← Real.sqrt_mul (sq_nonneg w)]
    congr 1; field_simp
  rw [hN] at hb ⊢
  set N := √(1 + (v / w) ^ 2)
  have hN1 : 1 ≤ N := Real.one_le_sqrt.2 (by nlinarith [sq_nonneg (v / w)])
  have hrN : r ≤ 11 / 10 * N := by
    have := (abs_le.1 a7).2
    nlinarith
  have h2 : (2 : ℝ) ^ (fmtOf b32).bias = 2 * 2 ^ ((fmtOf b32).bias - 1) := by
    rw [← pow_succ']; congr 1; cases b32 <;> decide
  have hwr : |w| * r ≤ 11 / 10 * (|w| * N) := by nlinarith
  have hwr0 : 0 < |w| * r := by positivity
  have hlast : (fmtOf b32).rne (|w| * r) = .f ((fmtOf b32).rnd (|w| * r)) := FloatFmt.rne_f hF.ok (by rw [abs_of_pos hwr0]; nlinarith)
  have s1 : binIE (fmtOf b32) .div (.f v) (.f w) = .f q := by
    show (if w = 0 then _ else (fmtOf b32).rne (v / w)) = _
    rw [if_neg hwn, hq]; exact rne_small (ht.trans (by norm_num))
  have s2 : binIE (fmtOf b32) .mul (.f q) (.f q) = .f p := by
    rw [hp]; exact rne_small (by rw [abs_mul]; nlinarith [abs_nonneg q])
  have s3 : binIE (fmtOf b32) .add (.f 1) (.f p) = .f s := by
    rw [hs]; exact rne_small (by rw [abs_of_nonneg (by linarith)]; linarith)
  have hsq2 : √s ≤ 2 := Real.sqrt_le_iff.2 ⟨by norm_num, by linarith⟩
  have s4 : methIE (fmtOf b32) "sqrt" (.f s) [] = .f r := by
    rw [methIE_sqrt (F := fmtOf b32) (x := s) (by linarith)]
    rw [hr]; exact rne_small (by rw [abs_of_nonneg (Real.sqrt_nonneg _)]; linarith)
  have hge : (fmtOf b32).tiny ≤ |w| * r := by nlinarith
  have e1 := FloatFmt.rnd_rel (F := fmtOf b32) (x := |w| * r) (by rw [abs_of_pos hwr0]; exact hge)
  rw [abs_of_pos hwr0] at e1
  refine ⟨(fmtOf b32).rnd (|w| * r), ?_, FloatFmt.rnd_repr _, ?_, ?_⟩
  · rw [s1, s2, s3, s4]; exact hlast
  · have := (abs_le.1 e1).1
    nlinarith
  · have e2 : |(|w| * r) - |w| * N| ≤ |w| * (37 / 10 * (fmtOf b32).eps * N) := by
      rw [← mul_sub, abs_mul, abs_abs]
      exact mul_le_mul_of_nonneg_left a7 hw0.le
    have e3 := abs_sub_le ((fmtOf b32).rnd (|w| * r)) (|w| * r) (|w| * N)
    have hA : 0 < |w| * N := by positivity
    nlinarith

/-- **C109** Generated `hypot` in float arithmetic: for all floats, the larger of which is above the smallest normal number, whose norm is at most half the largest power of two. -/
theorem C109_hypot (hg : BitConsts (fmtOf b32) g) {x y : ℝ} (h : (fmtOf b32).tiny < max |x| |y|) (hb : √(x ^ 2 + y ^ 2) ≤ 2 ^ ((fmtOf b32).bias - 1)) :
    ∃ z, Gen.hypot.apply (ieeeInterp (fmtOf b32) calls) g [.f x, .f y] = .f z ∧ (fmtOf b32).Repr z ∧ 0 < z ∧ |z - √(x ^ 2 + y ^ 2)| ≤ 5 * (fmtOf b32).eps * √(x ^ 2 + y ^ 2) := by
  have hF := FloatFmt.wide_fmtOf b32
  have hm : g ["MIN_POSITIVE"] = .f (fmtOf b32).tiny := hg.min_positive
  simp only [Gen.hypot, ofFty_apply, List.map, bindParams]
  by_cases hlt : |y| < |x|
  · have hx : (fmtOf b32).tiny < |x| := by rwa [max_eq_left hlt.le] at h
    obtain ⟨z, hz, hz'⟩ := hypot_steps hg hx hlt.le hb
    refine ⟨z, ?_, hz'⟩
    rw [← hz]
    simp only [denoteBlock_letT, denoteBlock_expr]
    simp [hlt, hm, not_le.2 hx, numIE_1 hF]
  · have hy : (fmtOf b32).tiny < |y| := by rwa [max_eq_right (not_lt.1 hlt)] at h
    rw [add_comm (x ^ 2)] at hb ⊢
    obtain ⟨z, hz, hz'⟩ := hypot_steps hg hy (not_lt.1 hlt) hb
    refine ⟨z, ?_, hz'⟩
    rw [← hz]
    simp only [denoteBlock_letT, denoteBlock_expr]
    simp [hlt, hm, not_le.2 hy, numIE_1 hF]

/-- **C109** `hypot` does not depend on the order of its arguments, also where the norm overflows.  In full this would hold for all `x` and `y`; see
`C109_hypot_swap_wrong`. -/
theorem C109_hypot_swap_partial (hg : BitConsts (fmtOf b32) g) {x y : ℝ} (h : (fmtOf b32).tiny < max |x| |y|) :
    Gen.hypot.apply (ieeeInterp (fmtOf b32) calls) g [.f x, .f y] = Gen.hypot.apply (ieeeInterp (fmtOf b32) calls) g [.f y, .f x] := by
  have hF := FloatFmt.wide_fmtOf b32
  have hm : g ["MIN_POSITIVE"] = .f (fmtOf b32).tiny := hg.min_positive
  simp only [Gen.hypot, ofFty_apply, List.map, bindParams]
  simp only [denoteBlock_letT, denoteBlock_expr]
  rcases lt_trichotomy |x| |y| with k | k | k
  · have hy : (fmtOf b32).tiny < |y| := by rwa [max_eq_right k.le] at h
    simp [k, not_lt.2 k.le, hm, not_le.2 hy, numIE_1 hF]
  · rcases abs_eq_abs.1 k with k | k
    · rw [k]
    · have hy : (fmtOf b32).tiny < |y| := by rwa [k, abs_neg, max_self] at h
      have hyn : y ≠ 0 := abs_pos.1 (FloatFmt.tiny_pos.trans hy)
      subst k
      have hd : binIE (fmtOf b32) .div (.f y) (.f (-y)) = binIE (fmtOf b32) .div (.f (-y)) (.f y) := by
        show (if -y = 0 then _ else (fmtOf b32).rne (y / -y)) = (if y = 0 then _ else (fmtOf b32).rne (-y / y))
        rw [if_neg (neg_ne_zero.2 hyn), if_neg hyn, div_neg, neg_div]
      simp [hm, not_le.2 hy, numIE_1 hF, hd]
  · have hx : (fmtOf b32).tiny < |x| := by rwa [max_eq_left k.le] at h
    simp [k, not_lt.2 k.le, hm, not_le.2 hx, numIE_1 hF]

/-- **C109** At tiny arguments of opposite signs the order does matter: the second one is returned. -/
theorem C109_hypot_swap_wrong (hg : BitConsts (fmtOf b32) g) : ∃ x y : ℝ, (fmtOf b32).Repr x ∧ (fmtOf b32).Repr y ∧
    Gen.hypot.apply (ieeeInterp (fmtOf b32) calls) g [.f x, .f y] ≠ Gen.hypot.apply (ieeeInterp (fmtOf b32) calls) g [.f y, .f x] := by
  have hm : g ["MIN_POSITIVE"] = .f (fmtOf b32).tiny := hg.min_positive
  have h0 := FloatFmt.tiny_pos (F := fmtOf b32)
  have hr : (fmtOf b32).Repr (fmtOf b32).tiny := ⟨1, 1 - (fmtOf b32).bias, by simp [FloatFmt.tiny], by rw [abs_one]; exact one_le_pow₀ (by norm_num), by omega⟩
  refine ⟨(fmtOf b32).tiny, -(fmtOf b32).tiny, hr, hr.neg, ?_⟩
  · simp only [Gen.hypot, ofFty_apply, List.map, bindParams]
    simp only [denoteBlock_letT, denoteBlock_expr]
    simp [hm, abs_of_pos h0]
    intro h; linarith

/-- The triangle with the sides three and four. -/
example (b32 : Bool) (calls : String → List RV → RV) : ∃ z, Gen.hypot.apply (ieeeInterp (fmtOf b32) calls) (bitsIE b32) [.f 3, .f (-4)] = .f z ∧ 0 < z ∧
    |z - 5| ≤ 25 * (fmtOf b32).eps ∧ Gen.hypot.apply (ieeeInterp (fmtOf b32) calls) (bitsIE b32) [.f (-4), .f 3] = .f z := by
  have hg := bitsIE_consts b32
  have ht : (fmtOf b32).tiny ≤ 1 := (FloatFmt.tiny_le (FloatFmt.wide_fmtOf b32)).trans (by norm_num)
  have hm : (fmtOf b32).tiny < max |(3 : ℝ)| |(-4 : ℝ)| := lt_max_of_lt_left (by rw [abs_of_pos (by norm_num)]; linarith)
  have h5 : √((3 : ℝ) ^ 2 + (-4) ^ 2) = 5 := by rw [show (3 : ℝ) ^ 2 + (-4) ^ 2 = 5 ^ 2 by norm_num]; exact Real.sqrt_sq (by norm_num)
  obtain ⟨z, hz, -, hp, he⟩ := C109_hypot (calls := calls) hg hm (by
    rw [h5]
    refine le_trans (by norm_num : (5 : ℝ) ≤ 2 ^ 3) (pow_le_pow_right₀ (by norm_num) ?_)
    cases b32 <;> decide)
  rw [h5] at he
  exact ⟨z, hz, hp, by linarith, by rw [← C109_hypot_swap_partial hg hm]; exact hz⟩

end

end Verif

import Verif.Props.TestInvTrig
import Mathlib.Analysis.Real.Pi.Bounds

/-!
# C105 The generated 64-bit `asin` passes its accuracy test on `[-1, 1]`

As C102, at 64 bits and with the value of the constant for half of pi.
-/

namespace Verif
open RExpr Dec

/-- Bounds of the coefficients of `asin` at 64 bits. -/
def asinBox64 : List (ℚ × ℚ) :=
  [(0, 0), (9999999999999998240852049 / 10000000000000000000000000, 1249999999999999782685029 / 1250000000000000000000000),
  (0, 0), (208333213314487022137453 / 1250000000000000000000000, 1666667626821721998795463 / 10000000000000000000000000),
  (0, 0), (5999984634064723709029 / 80000000000000000000000, 750001919869742107020303 / 10000000000000000000000000),
  (0, 0), (446424765979190305963281 / 10000000000000000000000000, 111608111800623398186659 / 2500000000000000000000000),
  (0, 0), (30381026931988456767723 / 1000000000000000000000000, 151912815883245570621969 / 5000000000000000000000000),
  (0, 0), (27968098966777186881067 / 1250000000000000000000000, 4475510332548612843639 / 200000000000000000000000),
  (0, 0), (172839310591472533813029 / 10000000000000000000000000, 10806297523618676754991 / 625000000000000000000000),
  (0, 0), (73699869390839944485011 / 5000000000000000000000000, 5900905534181299100147 / 400000000000000000000000),
  (0, 0), (24216296792109082669093 / 5000000000000000000000000, 48678392729923342405493 / 10000000000000000000000000),
  (0, 0), (6510404984726917616203 / 125000000000000000000000, 260661998534781881715427 / 5000000000000000000000000),
  (0, 0), (-1918364164084593935023831 / 10000000000000000000000000, -1917380967501773226754603 / 10000000000000000000000000),
  (0, 0), (7179967946341404365927141 / 10000000000000000000000000, 7181934339507045782465601 / 10000000000000000000000000),
  (0, 0), (-4707409799023490152705797 / 2500000000000000000000000, -18825706409762677777746259 / 10000000000000000000000000),
  (0, 0), (37142744669426338777119069 / 10000000000000000000000000, 7430122048417780888654589 / 2000000000000000000000000),
  (0, 0), (-10456279156633822390448071 / 2000000000000000000000000, -10453132927568796123986513 / 2000000000000000000000000),
  (0, 0), (50408692530808439232952453 / 10000000000000000000000000, 25220077410729350948784053 / 5000000000000000000000000),
  (0, 0), (-29832525246571668988739307 / 10000000000000000000000000, -29769600665271143659507851 / 10000000000000000000000000),
  (0, 0), (8310723512111740154069569 / 10000000000000000000000000, 8436572674712790812532781 / 10000000000000000000000000)]

/-- The certificate of `asin`. -/
def asinCert64 : ChebBudget := asinCert 35 40 (13 / 10 ^ 25) (37 * 10 ^ 7) (5 * 10 ^ 9) (986 / 10 ^ 19) (787 / 1000)

theorem asinBox64_ok : asinCert64.boxOk .odd (1, 1) (0, 0) asinBox64 := by decide +kernel
theorem asinBox64_small : ∀ r ∈ asinBox64, |r.1| ≤ 10 ^ 30 ∧ |r.2| ≤ 10 ^ 30 := by decide +kernel
def asinLits64 : List Enc := litBox ulp64 (1 / 10 ^ 18) asinBox64

theorem asin_cells_wide64 : ∀ i ∈ List.range 46, (polyEnc ulp64 .odd 35 asinLits64 (cell (-23 / 32) (1 / 32) i)).ok = true ∧
    (polyEnc ulp64 .odd 35 asinLits64 (cell (-23 / 32) (1 / 32) i)).err ≤ 1792 / 1000 * ulp64 := by decide +kernel

/-- The polynomial of `asin` at a float of the tests. -/
theorem asin_code_enc64 {ext : BdExt} {fx : FloatExt} {v : ℝ} (hs : SqrtOk ext) (hf : 20 ≤ ext.fuel) (h : RoundedLits fx false v) (hv : v ≤ 1 / 10 ^ 18) :
    ∃ e, polynomialCode ext fx false .asin ⟨-70710678118654752440, 20⟩ ⟨70710678118654752440, 20⟩ = .ok e ∧
      EncCode .f64 "x" e.toR Real.arcsin asinLim (986 / 10 ^ 19) (polyEnc ulp64 .odd 35 asinLits64) := by
  obtain ⟨e, h1, h2⟩ := (asin_fits ext hs (by omega) .asin rfl rfl rfl rfl 35 40 rfl (13 / 10 ^ 25) (37 * 10 ^ 7) (5 * 10 ^ 9) (986 / 10 ^ 19) (787 / 1000) asin_ok_36).encCode asin_ok_36 asinBox64_ok rfl
    asinBox64_small (by norm_num) (by norm_num) h eps_ulp64 (v' := 1 / 10 ^ 18) (by push_cast; exact hv) rfl rfl
  refine ⟨e, h1, ?_⟩
  have e1 : (((asinCert 35 40 (13 / 10 ^ 25) (37 * 10 ^ 7) (5 * 10 ^ 9) (986 / 10 ^ 19) (787 / 1000)).hi : ℚ) : ℝ) = asinLim := by simp [asinCert, asinLim]
  have e2 : (((asinCert 35 40 (13 / 10 ^ 25) (37 * 10 ^ 7) (5 * 10 ^ 9) (986 / 10 ^ 19) (787 / 1000)).ε : ℚ) : ℝ) = 986 / 10 ^ 19 := by simp [asinCert]
  rw [e1, e2] at h2
  exact h2

/-- How steep the arc sine is where the polynomial is used. -/
theorem arcsin_lipschitz_edge {x c : ℝ} (hx : |x| ≤ 7072 / 10000) (hc : |c| ≤ 7072 / 10000) : |Real.arcsin c - Real.arcsin x| ≤ 1415 / 1000 * |x - c| := by
  have key := Convex.norm_image_sub_le_of_norm_hasDerivWithin_le (f := Real.arcsin) (f' := fun t => 1 / √(1 - t ^ 2)) (s := Set.Icc (-(7072 / 10000)) (7072 / 10000)) (C := 1415 / 1000) (x := x) (y := c)
    (fun t ht => (Real.hasDerivAt_arcsin (by linarith [ht.1]) (by linarith [ht.2])).hasDerivWithinAt)
    (fun t ht => by
      have h1 : 1000 / 1415 ≤ √(1 - t ^ 2) := Real.le_sqrt_of_sq_le (by nlinarith [ht.1, ht.2])
      rw [Real.norm_eq_abs, abs_of_nonneg (by positivity)]
      rw [div_le_iff₀ (by linarith)]
      linarith)
    (convex_Icc _ _) (abs_le.1 hx) (abs_le.1 hc)
  rw [Real.norm_eq_abs, Real.norm_eq_abs] at key
  rwa [abs_sub_comm x c]

section
variable {p : RExpr} (hp : EncCode .f64 "x" p Real.arcsin asinLim (986 / 10 ^ 19) (polyEnc ulp64 .odd 35 asinLits64))
include hp

/-- The polynomial at any float in its range. -/
theorem asin_poly_wide64 {a : ℝ} (h1 : |a| ≤ asinLim) : ∃ y, (∀ calls env, env ["x"] = .f a → p.denote (ieeeInterp .f64 calls) env = .f y) ∧
    |y - Real.arcsin a| ≤ 2681 / 1000 * FloatFmt.f64.eps ∧ |y| ≤ 9 / 10 ∧ FloatFmt.f64.Repr y := by
  have hlim : asinLim ≤ 23 / 32 := by unfold asinLim; norm_num
  obtain ⟨i, hi, hX⟩ := grid_cover (a := -23 / 32) (h := 1 / 32) (n := 46) (by norm_num) (by norm_num) (x := a) (by push_cast; linarith [abs_le.1 h1]) (by push_cast; linarith [abs_le.1 h1])
  obtain ⟨k1, k2⟩ := asin_cells_wide64 i hi
  obtain ⟨y, q, y1, y2, y3, y4⟩ := hp _ a a hX h1 k1
  have hε : FloatFmt.f64.eps = 1 / 2 ^ 53 := eps_f64
  have h3 : |y - q| ≤ 1792 / 1000 * FloatFmt.f64.eps := by
    refine y2.2.2.trans ((Rat.cast_le.2 k2).trans (le_of_eq ?_))
    rw [show FloatFmt.f64.eps = (ulp64 : ℝ) from eps_ulp64]
    push_cast; rfl
  have h4 : |y - Real.arcsin a| ≤ 2681 / 1000 * FloatFmt.f64.eps := by
    have := abs_add_le (y - q) (q - Real.arcsin a)
    rw [sub_add_sub_cancel] at this
    rw [hε] at *
    norm_num at *
    linarith
  refine ⟨y, y1, h4, ?_, y4⟩
  have h5 : |Real.arcsin a| ≤ 8 / 10 := by
    have h2 : |a| ≤ √2 / 2 := by
      refine h1.trans ?_
      have := Real.le_sqrt_of_sq_le (show (2 * asinLim) ^ 2 ≤ 2 by unfold asinLim; norm_num)
      linarith
    have h3 : Real.arcsin (√2 / 2) = Real.pi / 4 := by
      rw [← Real.sin_pi_div_four, Real.arcsin_sin] <;> linarith [Real.pi_pos]
    have h4 := Real.monotone_arcsin (abs_le.1 h2).2
    have h5 := Real.monotone_arcsin (abs_le.1 h2).1
    rw [Real.arcsin_neg] at h5
    have := Real.pi_lt_d2
    rw [abs_le]; constructor <;> linarith
  have := abs_sub_abs_le_abs_sub y (Real.arcsin a)
  rw [hε] at h4
  norm_num at h4
  linarith

/-- What `asin` and `acos` compute before the last step, at a float whose square is a float when it matters. -/
theorem asin_parts_exact64 (calls : String → List RV → RV) {a : ℝ} (ha : FloatFmt.f64.Repr a) (h1 : |a| ≤ 1)
    (hex : 1 / 4 ≤ a * a → FloatFmt.f64.rnd (a * a) = a * a ∧ FloatFmt.f64.rnd (1 - a * a) = 1 - a * a) :
    let F := FloatFmt.f64
    F.rne (70710678118654752440 / 10 ^ 20) = .f (F.rnd asinLim) ∧ F.rne (F.rnd asinLim * F.rnd asinLim) = .f (F.rnd (F.rnd asinLim * F.rnd asinLim)) ∧
    F.rne (a * a) = .f (F.rnd (a * a)) ∧
    if F.rnd (a * a) < F.rnd (F.rnd asinLim * F.rnd asinLim) then
      ∃ y, (∀ env, env ["x"] = .f a → p.denote (ieeeInterp F calls) env = .f y) ∧ |y - Real.arcsin a| ≤ 2681 / 1000 * F.eps ∧ |y| ≤ 9 / 10 ∧ F.Repr y
    else ∃ x y, methIE F "sqrt" (F.rne (1 - F.rnd (a * a))) [] = .f x ∧
      (∀ env, env ["x"] = .f x → p.denote (ieeeInterp F calls) env = .f y) ∧ |y - Real.arcsin √(1 - a * a)| ≤ 339 / 100 * F.eps ∧ |y| ≤ 9 / 10 ∧ F.Repr y := by
  intro F
  have hF : F.Wide := FloatFmt.wide_fmtOf false
  have hε : F.eps = 1 / 2 ^ 53 := eps_f64
  have hB := (FloatFmt.bias_pow_ge hF).1
  norm_num at hB
  obtain ⟨l1, l2, l3, l4, l5⟩ := asin_lim false
  change 7 / 10 ≤ F.rnd asinLim at l1
  change F.rnd asinLim ≤ 71 / 100 at l2
  have haa0 : 0 ≤ a * a := mul_self_nonneg a
  have haa1 : a * a ≤ 1 := by rw [← abs_mul_abs_self]; nlinarith [abs_nonneg a]
  have hlim7 : asinLim ≤ 70711 / 100000 := by unfold asinLim; norm_num
  have hlim : asinLim ≤ 71 / 100 ∧ 0 ≤ asinLim := by unfold asinLim; constructor <;> norm_num
  refine ⟨?_, FloatFmt.rne_f hF.ok (by rw [abs_of_nonneg (by positivity)]; nlinarith), FloatFmt.rne_f hF.ok (by rw [abs_of_nonneg haa0]; linarith), ?_⟩
  · exact FloatFmt.rne_f hF.ok (x := asinLim) (by rw [abs_of_nonneg hlim.2]; linarith [hlim.1])
  · split_ifs with hin
    · obtain ⟨y, y1, y2⟩ := asin_poly_wide64 hp (l4 a ha hin)
      exact ⟨y, y1 calls, y2⟩
    · have hq := not_lt.1 hin
      have h0 : 1 / 4 ≤ a * a := by
        by_contra hc
        rw [not_le] at hc
        have h3 : F.rnd (a * a) ≤ 1 / 4 := FloatFmt.rnd_le (by have := FloatFmt.repr_eighths hF 2 (by norm_num); norm_num at this ⊢; exact this) hc.le
        change 49 / 100 ≤ F.rnd (F.rnd asinLim * F.rnd asinLim) at l3
        linarith
      obtain ⟨x1, x2⟩ := hex h0
      have hx1 : F.rnd √(F.rnd (1 - a * a)) ≤ asinLim := l5 _ (by rw [← x1]; exact hq) haa1
      change F.rnd (a * a) = _ at x1
      change F.rnd (1 - a * a) = _ at x2
      rw [x2] at hx1
      have hs0 := Real.sqrt_nonneg (1 - a * a)
      have hs1 : √(1 - a * a) ≤ 1 := Real.sqrt_le_one.2 (by linarith)
      have hr : |F.rnd √(1 - a * a) - √(1 - a * a)| ≤ F.eps / 2 := by
        have := FloatFmt.rnd_below (F := F) (x := √(1 - a * a)) (b := 0) (by decide) (by rw [abs_of_nonneg hs0]; simpa using hs1)
        simpa using this
      have hn : 0 ≤ F.rnd √(1 - a * a) := FloatFmt.le_rnd FloatFmt.repr_zero hs0
      obtain ⟨y, y1, y2, y3, y4⟩ := asin_poly_wide64 hp (a := F.rnd √(1 - a * a)) (by rwa [abs_of_nonneg hn])
      refine ⟨F.rnd √(1 - a * a), y, ?_, y1 calls, ?_, y3, y4⟩
      · rw [x1, FloatFmt.rne_f hF.ok (by rw [abs_of_nonneg (by linarith)]; linarith), x2, methIE_sqrt F (by linarith)]
        exact FloatFmt.rne_f hF.ok (by rw [abs_of_nonneg hs0]; linarith)
      · rw [hε] at hr
        norm_num at hr
        have hr' := abs_le.1 hr
        have hL := arcsin_lipschitz_edge (x := √(1 - a * a)) (c := F.rnd √(1 - a * a)) (by rw [abs_of_nonneg hs0]; linarith [hlim7]) (by rw [abs_of_nonneg hn]; linarith [hlim7])
        have h3 := abs_add_le (y - Real.arcsin (F.rnd √(1 - a * a))) (Real.arcsin (F.rnd √(1 - a * a)) - Real.arcsin √(1 - a * a))
        rw [sub_add_sub_cancel] at h3
        rw [abs_sub_comm (√(1 - a * a))] at hL
        change |y - _| ≤ 2681 / 1000 * F.eps at y2
        rw [hε] at *
        norm_num at *
        linarith

end

/-- The last steps: a change of sign loses nothing, and a difference below two loses one unit. -/
theorem last_steps64 {y : ℝ} (hr : FloatFmt.f64.Repr y) (hy : |y| ≤ 9 / 10) :
    FloatFmt.f64.rne (y * 1) = .f y ∧ FloatFmt.f64.rne (y * -1) = .f (-y) ∧
      ∀ k z : ℝ, |k| ≤ 32 / 10 → |z| = |y| → |k - z| ≤ 2 → FloatFmt.f64.rne (k - z) = .f (FloatFmt.f64.rnd (k - z)) ∧ |FloatFmt.f64.rnd (k - z) - (k - z)| ≤ FloatFmt.f64.eps := by
  have hF : FloatFmt.f64.Wide := FloatFmt.wide_fmtOf false
  have hB := (FloatFmt.bias_pow_ge hF).1
  norm_num at hB
  refine ⟨?_, ?_, fun k z hk hz h4 => ⟨FloatFmt.rne_f hF.ok (by linarith), ?_⟩⟩
  · rw [mul_one, FloatFmt.rne_f hF.ok (by linarith), FloatFmt.rnd_of_repr hr]
  · rw [mul_neg, mul_one, FloatFmt.rne_f hF.ok (by rw [abs_neg]; linarith), FloatFmt.rnd_of_repr hr.neg]
  · have := FloatFmt.rnd_below (F := .f64) (x := k - z) (b := 1) (by decide) (by norm_num; exact h4)
    norm_num at this
    exact this

section
variable {calls : String → List RV → RV} {g : Name → RV} {p : RExpr} (hp : EncCode .f64 "x" p Real.arcsin asinLim (986 / 10 ^ 19) (polyEnc ulp64 .odd 35 asinLits64))
  (hpi : g ["PI_BY_2"] = .f (7074237752028440 / 2 ^ 52)) {a : ℝ} (ha : FloatFmt.f64.Repr a) (h1 : |a| ≤ 1)
  (hex : 1 / 4 ≤ a * a → FloatFmt.f64.rnd (a * a) = a * a ∧ FloatFmt.f64.rnd (1 - a * a) = 1 - a * a)
include hp hpi ha h1 hex

/-- The generated `asin` at such floats. -/
theorem asin_exact64 : ∃ y, (Gen.asin p).apply (ieeeInterp .f64 calls) g [.f a] = .f y ∧ |y - Real.arcsin a| ≤ 4943 / 1000 * FloatFmt.f64.eps := by
  obtain ⟨c, hcq⟩ : ∃ c : ℝ, c = 7074237752028440 / 2 ^ 52 := ⟨_, rfl⟩
  have hF : FloatFmt.f64.Wide := FloatFmt.wide_fmtOf false
  have hε := FloatFmt.eps_pos (F := .f64)
  have hc : g ["PI_BY_2"] = .f c := by rw [hcq]; exact hpi
  have hc1 : |c - Real.pi / 2| ≤ 5525 / 10000 * FloatFmt.f64.eps := by
    have p1 := Real.pi_gt_d20; have p2 := Real.pi_lt_d20
    rw [show FloatFmt.f64.eps = 1 / 2 ^ 53 from eps_f64, hcq, abs_le]
    norm_num at p1 p2 ⊢
    constructor <;> linarith
  have hc2 : 157 / 100 ≤ c ∧ c ≤ 158 / 100 := by rw [hcq]; norm_num
  obtain ⟨r1, r2, r3, hP⟩ := asin_parts_exact64 hp calls ha h1 hex
  have hlit : ∀ env, (num "0.70710678118654752440").denote (ieeeInterp .f64 calls) env = .f (FloatFmt.f64.rnd asinLim) := fun env => by
    rw [denoteIE_num (d := ⟨70710678118654752440, 20⟩) _ _ _ rfl, asin_val.2, r1]
  have hedge := arcsin_edge a
  split_ifs at hP with hin
  · obtain ⟨y, hy, he, -, -⟩ := hP
    refine ⟨y, ?_, by linarith⟩
    simp only [Gen.asin, Gen.insideLim, Gen.edgeArg, ofFty_apply, List.map, bindParams]
    simp [hlit, r2, r3, hin]
    exact hy _ (by simp)
  · obtain ⟨x, y, hx, hPx, he, hb, hr⟩ := hP
    obtain ⟨m1, m2, m3⟩ := last_steps64 hr hb
    have hb' := abs_le.1 hb
    have hy0 : -(1 / 10) ≤ y := by
      have := Real.arcsin_nonneg.2 (Real.sqrt_nonneg (1 - a * a))
      have := abs_le.1 he
      rw [show FloatFmt.f64.eps = 1 / 2 ^ 53 from eps_f64] at this
      norm_num at this
      linarith
    by_cases hneg : a < 0
    · obtain ⟨m4, m5⟩ := m3 (-c) (-y) (by rw [abs_neg, abs_of_nonneg (by linarith)]; linarith) (abs_neg y) (by rw [abs_le]; constructor <;> linarith)
      refine ⟨FloatFmt.f64.rnd (-c - -y), ?_, ?_⟩
      · simp only [Gen.asin, Gen.insideLim, Gen.edgeArg, ofFty_apply, List.map, bindParams]
        simp [hlit, r2, r3, hin, numIE_0 hF, numIE_1 hF, hneg, hc, hx]
        rw [hPx _ (by simp)]
        simp only [binIE_mul, m2, binIE_sub, m4]
        simp
      · simp only [hneg, if_true] at hedge
        rw [hedge] at he
        have := abs_le.1 m5; have := abs_le.1 he; have := abs_le.1 hc1
        rw [abs_le]; constructor <;> linarith
    · obtain ⟨m4, m5⟩ := m3 c y (by rw [abs_of_nonneg (by linarith)]; linarith) rfl (by rw [abs_le]; constructor <;> linarith)
      refine ⟨FloatFmt.f64.rnd (c - y), ?_, ?_⟩
      · simp only [Gen.asin, Gen.insideLim, Gen.edgeArg, ofFty_apply, List.map, bindParams]
        simp [hlit, r2, r3, hin, numIE_0 hF, numIE_1 hF, hneg, hc, hx]
        rw [hPx _ (by simp)]
        simp only [binIE_mul, m1, binIE_sub, m4]
      · simp only [hneg, if_false] at hedge
        rw [hedge] at he
        have := abs_le.1 m5; have := abs_le.1 he; have := abs_le.1 hc1
        rw [abs_le]; constructor <;> linarith

end

/-! ## The samples -/

/-- Rounding to 64 bits keeps the multiples of 1/1024 up to one. -/
def KeepsGrid64 (ext : BdExt) : Prop := ∀ k : ℤ, |k| ≤ 1024 → KeepsNumber ext (k / 1024) (1 / 10 ^ 39) (1 / 10 ^ 39)

/-- The decimals next to a sample are rounded to it.  Near zero only the size matters. -/
theorem grid_float64 {k : ℤ} (hk1 : |k| ≤ 1024) {x : ℝ} (hx : |x - k / 1024| ≤ 1 / 10 ^ 39) :
    |FloatFmt.f64.rnd x| ≤ max |(k : ℝ) / 1024| (1 / 4) ∧ |FloatFmt.f64.rnd x - x| ≤ 1 / 10 ^ 37 ∧
      (1 / 4 ≤ FloatFmt.f64.rnd x * FloatFmt.f64.rnd x → FloatFmt.f64.rnd x = k / 1024) := by
  have key : ∀ (k : ℤ) (x : ℝ), 0 < k → k ≤ 1024 → |x - k / 1024| ≤ 1 / 10 ^ 39 → FloatFmt.f64.rnd x = k / 1024 := by
    intro k x h0 h1 hx
    have h2 : (1 : ℝ) ≤ k := by exact_mod_cast h0
    have hx' := abs_le.1 hx
    norm_num at hx'
    refine FloatFmt.rnd_eq (F := .f64) (E := -11) ⟨k, -10, by norm_num; ring, by
      have : FloatFmt.f64.mant = 52 := rfl
      rw [this, abs_of_pos h0]; norm_num; omega, by decide⟩ (by norm_num; linarith) (by decide) ?_ (by norm_num; linarith)
    have e : ((-11 : ℤ) - (FloatFmt.f64.mant : ℤ)) = -63 := by decide
    rw [e]
    refine hx.trans_lt ?_
    norm_num
  rcases lt_trichotomy k 0 with h | h | h
  · have h1 := key (-k) (-x) (by omega) (by have := (abs_le.1 hk1).1; omega) (by
      rw [← abs_neg]; push_cast
      rwa [show -(-x - -(k : ℝ) / 1024) = x - k / 1024 by ring])
    rw [FloatFmt.rnd_neg] at h1
    have h2 : FloatFmt.f64.rnd x = k / 1024 := by push_cast at h1; linarith
    rw [h2]
    exact ⟨le_max_left _ _, by rw [abs_sub_comm]; refine hx.trans (by norm_num), fun _ => rfl⟩
  · have h0 : |x| ≤ (2 : ℝ) ^ (-127 : ℤ) := by
      rw [h] at hx
      norm_num at hx ⊢
      linarith
    have h1 : |FloatFmt.f64.rnd x| ≤ (2 : ℝ) ^ (-127 : ℤ) := FloatFmt.abs_rnd_le (FloatFmt.repr_zpow (by decide)) h0
    norm_num at h0 h1
    refine ⟨le_max_of_le_right (by linarith), ?_, fun h2 => ?_⟩
    · have := abs_le.1 h0; have := abs_le.1 h1
      norm_num
      rw [abs_le]; constructor <;> linarith
    · exfalso
      rw [← abs_mul_abs_self] at h2
      nlinarith [abs_nonneg (FloatFmt.f64.rnd x)]
  · have h2 := key k x h (abs_le.1 hk1).2 hx
    rw [h2]
    exact ⟨le_max_left _ _, by rw [abs_sub_comm]; refine hx.trans (by norm_num), fun _ => rfl⟩

/-- Squares of multiples of 1/1024 are floats, and so is what is missing to one. -/
theorem grid_square64 {k : ℤ} (hk : |k| ≤ 1024) :
    FloatFmt.f64.rnd ((k / 1024 : ℝ) * (k / 1024)) = k / 1024 * (k / 1024) ∧ FloatFmt.f64.rnd (1 - (k / 1024 : ℝ) * (k / 1024)) = 1 - k / 1024 * (k / 1024) := by
  have h1 : k * k ≤ 1024 * 1024 := by rw [← abs_mul_abs_self]; nlinarith [abs_nonneg k]
  have h0 : 0 ≤ k * k := mul_self_nonneg k
  have hm : FloatFmt.f64.mant = 52 := rfl
  constructor
  · refine FloatFmt.rnd_of_repr ⟨k * k, -20, by push_cast; norm_num; ring, ?_, by decide⟩
    rw [hm, abs_of_nonneg h0]; norm_num; omega
  · refine FloatFmt.rnd_of_repr ⟨1024 * 1024 - k * k, -20, by push_cast; norm_num; ring, ?_, by decide⟩
    rw [hm, abs_of_nonneg (by omega)]; norm_num; omega

/-- The value at the float in place of the sample. -/
theorem arcsin_sample64 {a x : ℝ} (ha : |a| ≤ 1) (h : |a - x| ≤ 1 / 10 ^ 37) : |Real.arcsin a - Real.arcsin x| ≤ FloatFmt.f64.eps / 80 := by
  refine (arcsin_holder (y := x) ha).trans ?_
  have h1 : √|a - x| ≤ 32 / 10 ^ 20 := Real.sqrt_le_iff.2 ⟨by norm_num, h.trans (by norm_num)⟩
  rw [show FloatFmt.f64.eps = 1 / 2 ^ 53 from eps_f64]
  norm_num at h1 ⊢
  linarith

/-- A sample as the program reads it. -/
theorem KeepsGrid64.sample {ext : BdExt} (h : KeepsGrid64 ext) {tmin tmax : Expr} {a b : ℝ} (hmin : EvalsTo ext 40 tmin a 0) (hmax : EvalsTo ext 40 tmax b 0) (hab : |b - a| ≤ 2) {i : ℕ} (hi : i < 1024)
    {k : ℤ} (hk : |k| ≤ 1024) (he : a + i * (b - a) / 1024 = k / 1024) {ref : Expr}
    {dx dy de : Dec} (hd : sampleRow ext 40 64 ref tmin tmax 1024 i = .ok (exprOfDec dx, exprOfDec dy, exprOfDec de)) :
    |FloatFmt.f64.rnd dx.val| ≤ max |(k : ℝ) / 1024| (1 / 4) ∧ |FloatFmt.f64.rnd dx.val - dx.val| ≤ 1 / 10 ^ 37 ∧ (1 / 4 ≤ FloatFmt.f64.rnd dx.val * FloatFmt.f64.rnd dx.val →
      FloatFmt.f64.rnd (FloatFmt.f64.rnd dx.val * FloatFmt.f64.rnd dx.val) = FloatFmt.f64.rnd dx.val * FloatFmt.f64.rnd dx.val ∧
        FloatFmt.f64.rnd (1 - FloatFmt.f64.rnd dx.val * FloatFmt.f64.rnd dx.val) = 1 - FloatFmt.f64.rnd dx.val * FloatFmt.f64.rnd dx.val) := by
  have hpt := C72_points (ext := ext) (n := 40) hmin hmax 1024 i (by norm_num) hi.le
  have e : (a + (i : ℝ) * (b - a) / (1024 : ℕ) : ℝ) = ((k / 1024 : ℚ) : ℝ) := by push_cast; exact he
  rw [e] at hpt
  have hx := KeepsNumber.sample (h k hk) hpt (by
    push_cast
    have : (1 : ℝ) / 10 ^ 99 * |b - a| ≤ 1 / 10 ^ 99 * 2 := mul_le_mul_of_nonneg_left hab (by norm_num)
    norm_num at this ⊢
    linarith) (row_entries hd).1
  push_cast at hx
  obtain ⟨a1, a2, a3⟩ := grid_float64 hk hx
  refine ⟨a1, a2, fun h4 => ?_⟩
  rw [a3 h4]
  exact grid_square64 hk

section
variable {ext : BdExt} {fx : FloatExt} {P : Gen.Parts} {calls : String → List RV → RV} {g : Name → RV} {v : ℝ}

/-- **C105** The accuracy test of the 64-bit `asin` on `[-1, 1]` passes. -/
theorem C105_asin2 (h : TestLibrary ext fx false P calls g v) (hv : v ≤ 1 / 10 ^ 18) (hk : KeepsGrid64 ext) : ∀ s ∈ testSpecs, s.name = "test_asin2" → AccuracyTest ext false calls g s := by
  intro s hm hn
  obtain rfl : s = TestSpec.maxAbs "asin" "test_asin2" (TestSpec.meth "asin") (TestSpec.app "asin" [.path ["x"]]) (TestSpec.neg (TestSpec.fl "1.0")) (TestSpec.fl "1.0") 6 6 1024 := by
    revert hn; revert s; simp [testSpecs, TestSpec.maxAbs]
  have hf20 : 20 ≤ ext.fuel := by have := h.fuel; omega
  obtain ⟨e, h1, h2⟩ := asin_code_enc64 h.sqrt hf20 h.lits hv
  have hP := h.approx .asin (by simp [approxSpecs]) _ _ e rfl h1
  have hfn : LinkedIE .f64 calls g (Gen.asin e.toR) := h.fn "asin" (by decide +kernel) (by rw [← hP]; rfl)
  refine passes_at h.sqrt h.fuel h.rounds false _ hm _ _ _ _ _ rfl (V := Real.arcsin) (a := -1) (b := 1) (fun V' a' b' hV => by simpa [testMeaning, TestSpec.maxAbs] using hV)
    (f := TestSpec.value _ .f64 calls g) fun i hi dx dy de hd => ?_
  have hi1 : |2 * (i : ℤ) - 1024| ≤ 1024 := by rw [abs_le]; omega
  obtain ⟨a0, a2, a3⟩ := hk.sample (C67_neg evals_1) evals_1 (by norm_num) hi (k := 2 * (i : ℤ) - 1024) hi1 (by push_cast; ring) hd
  have a1 : |FloatFmt.f64.rnd dx.val| ≤ 1 := by
    refine a0.trans (max_le ?_ (by norm_num))
    have : |((2 * (i : ℤ) - 1024 : ℤ) : ℝ)| ≤ 1024 := by exact_mod_cast hi1
    rw [abs_div]
    norm_num at this ⊢
    linarith
  obtain ⟨y, y1, y2⟩ := asin_exact64 (calls := calls) h2 (half_pi_f64 h) (FloatFmt.rnd_repr _) a1 a3
  have hε : FloatFmt.f64.eps = 1 / 2 ^ 53 := eps_f64
  refine ⟨y, FloatFmt.f64.eps, ?_, fun z hz => ?_, ?_⟩
  · show calls "asin" [.f (FloatFmt.f64.rnd dx.val)] = _
    rw [show calls "asin" [.f (FloatFmt.f64.rnd dx.val)] = _ from hfn [.f _]]
    exact y1
  · have h3 := Real.pi_lt_d2
    have h4 : |Real.arcsin dx.val| ≤ 16 / 10 := by
      have := Real.arcsin_le_pi_div_two dx.val; have := Real.neg_pi_div_two_le_arcsin dx.val
      norm_num at h3
      rw [abs_le]; constructor <;> linarith
    have h5 := abs_sub_abs_le_abs_sub z (Real.arcsin dx.val)
    have := FloatFmt.rnd_below (F := .f64) (x := z) (b := 1) (by decide) (by norm_num at hz ⊢; linarith)
    norm_num at this
    exact this
  · have h3 := arcsin_sample64 a1 a2
    have h4 := abs_add_le (y - Real.arcsin (FloatFmt.f64.rnd dx.val)) (Real.arcsin (FloatFmt.f64.rnd dx.val) - Real.arcsin dx.val)
    rw [sub_add_sub_cancel] at h4
    have hlim : ((accuracyLimit false 6 6 : ℚ) : ℝ) = 6 * FloatFmt.f64.eps := by rw [hε]; norm_num [accuracyLimit]
    have h6 : |y - Real.arcsin dx.val| ≤ 4956 / 1000 * FloatFmt.f64.eps := by linarith [FloatFmt.eps_pos (F := .f64)]
    show (1 + 3 * FloatFmt.f64.eps) * (|y - Real.arcsin dx.val| + FloatFmt.f64.eps) + FloatFmt.f64.eps / 100 ≤ _
    rw [hlim]
    generalize |y - Real.arcsin dx.val| = D at h6 ⊢
    rw [hε] at h6 ⊢
    norm_num at h6 ⊢
    linarith

end

/-- The hypotheses can be met. -/
example : ∃ calls, ∀ s ∈ testSpecs, s.name = "test_asin2" → AccuracyTest tableExt false calls (bitsBy tableExt false) s := by
  obtain ⟨calls, h⟩ := C99_library_exists (ext := tableExt) ⟨longExt_ok.1, longExt_ok.2⟩ (by decide) tableExt_rounds false
  exact ⟨calls, C105_asin2 h (by norm_num) fun k _ => tableExt_keeps _ _⟩

end Verif

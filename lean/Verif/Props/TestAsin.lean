import Verif.Props.TestPass
import Verif.Props.IeeeInvTrig
import Verif.Props.IeeeSeeds
import Verif.Lemmas.EncCode

/-!
# C99 The generated 32-bit `asin` passes its first accuracy test
-/

namespace Verif
open RExpr Dec

/-- The relative precision of the 32-bit format. -/
def ulp32 : ℚ := 1 / 2 ^ 24

theorem eps_ulp32 : (fmtOf true).eps = ulp32 := by rw [eps_f32]; norm_num [ulp32]

/-- Bounds of the coefficients of `asin` at 32 bits. -/
def asinBox : List (ℚ × ℚ) :=
  [(0, 0), (9999999730429 / 10000000000000, 9999999741947 / 10000000000000), (0, 0), (1666666113047 / 10000000000000, 416696500059 / 2500000000000), (0, 0), (747686668401 / 10000000000000, 93490805347 / 1250000000000), (0, 0), (95376795087 / 2000000000000, 95472704837 / 2000000000000), (0, 0), (47618687041 / 5000000000000, 96196471581 / 10000000000000), (0, 0), (193499112373 / 2000000000000, 969413756861 / 10000000000000), (0, 0), (-1216469048651 / 10000000000000, -60631632933 / 500000000000), (0, 0), (637013937497 / 5000000000000, 51268026199 / 400000000000)]

theorem asinBox_ok : (asinCert 15 20 (11 / 10 ^ 21) 560 561 (143 / 10 ^ 10) (789 / 1000)).boxOk .odd (1, 1) (0, 0) asinBox := by decide +kernel
theorem asinBox_small : ∀ r ∈ asinBox, |r.1| ≤ 10 ^ 30 ∧ |r.2| ≤ 10 ^ 30 := by decide +kernel
def asinLits : List Enc := litBox ulp32 (1 / 10 ^ 12) asinBox

theorem asin_cells : ∀ i ∈ List.range 34, (polyEnc ulp32 .odd 15 asinLits (cell (-17 / 32) (1 / 32) i)).ok = true ∧
    (polyEnc ulp32 .odd 15 asinLits (cell (-17 / 32) (1 / 32) i)).err ≤ 14 / 10 * ulp32 := by decide +kernel

/-- The polynomial of `asin` at a float of the test. -/
theorem asin_code_enc {ext : BdExt} {fx : FloatExt} {v : ℝ} (hs : SqrtOk ext) (hf : 20 ≤ ext.fuel) (h : RoundedLits fx true v) (hv : v ≤ 1 / 10 ^ 12) :
    ∃ e, polynomialCode ext fx true .asin ⟨-70710678118654752440, 20⟩ ⟨70710678118654752440, 20⟩ = .ok e ∧
      EncCode .f32 "x" e.toR Real.arcsin asinLim (143 / 10 ^ 10) (polyEnc ulp32 .odd 15 asinLits) := by
  obtain ⟨e, h1, h2⟩ := (asin_fits ext hs (by omega) .asin rfl rfl rfl rfl 15 20 rfl (11 / 10 ^ 21) 560 561 (143 / 10 ^ 10) (789 / 1000) asin_ok_16).encCode asin_ok_16 asinBox_ok rfl
    asinBox_small (by norm_num) (by norm_num) h eps_ulp32 (v' := 1 / 10 ^ 12) (by push_cast; exact hv) rfl rfl
  refine ⟨e, h1, ?_⟩
  have e1 : (((asinCert 15 20 (11 / 10 ^ 21) 560 561 (143 / 10 ^ 10) (789 / 1000)).hi : ℚ) : ℝ) = asinLim := by simp [asinCert, asinLim]
  have e2 : (((asinCert 15 20 (11 / 10 ^ 21) 560 561 (143 / 10 ^ 10) (789 / 1000)).ε : ℚ) : ℝ) = 143 / 10 ^ 10 := by simp [asinCert]
  rw [e1, e2] at h2
  exact h2

/-- The generated `asin` on the arguments of the test. -/
theorem asin_close {p : RExpr} (hp : EncCode .f32 "x" p Real.arcsin asinLim (143 / 10 ^ 10) (polyEnc ulp32 .odd 15 asinLits)) (calls : String → List RV → RV) (g : Name → RV) {a : ℝ}
    (h1 : |a| ≤ 17 / 32) : ∃ y, (Gen.asin p).apply (ieeeInterp .f32 calls) g [.f a] = .f y ∧ |y - Real.arcsin a| ≤ 14 / 10 * FloatFmt.f32.eps + 143 / 10 ^ 10 := by
  have hF : FloatFmt.f32.Wide := FloatFmt.wide_fmtOf true
  obtain ⟨i, hi, hX⟩ := grid_cover (a := -17 / 32) (h := 1 / 32) (n := 34) (by norm_num) (by norm_num) (x := a) (by push_cast; linarith [abs_le.1 h1]) (by push_cast; linarith [abs_le.1 h1])
  obtain ⟨k1, k2⟩ := asin_cells i hi
  have hlim : 17 / 32 ≤ asinLim := by unfold asinLim; norm_num
  obtain ⟨y, q, y1, y2, y3, -⟩ := hp _ a a hX (h1.trans hlim) k1
  refine ⟨y, ?_, ?_⟩
  · obtain ⟨l1, l2, l3, -, -⟩ := asin_lim true
    change 7 / 10 ≤ FloatFmt.f32.rnd asinLim at l1
    change FloatFmt.f32.rnd asinLim ≤ 71 / 100 at l2
    change 49 / 100 ≤ FloatFmt.f32.rnd (FloatFmt.f32.rnd asinLim * FloatFmt.f32.rnd asinLim) at l3
    have haa0 : 0 ≤ a * a := mul_self_nonneg a
    have haa : a * a ≤ 3 / 8 := by rw [← abs_mul_abs_self]; nlinarith [abs_nonneg a]
    have hB := (FloatFmt.bias_pow_ge hF).1
    norm_num at hB
    have r3 : FloatFmt.f32.rne (a * a) = .f (FloatFmt.f32.rnd (a * a)) := FloatFmt.rne_f hF.ok (by rw [abs_of_nonneg haa0]; linarith)
    have r1 : FloatFmt.f32.rne (70710678118654752440 / 10 ^ 20) = .f (FloatFmt.f32.rnd asinLim) :=
      FloatFmt.rne_f hF.ok (x := asinLim) (by unfold asinLim; rw [abs_of_nonneg (by norm_num)]; norm_num; linarith)
    have r2 : FloatFmt.f32.rne (FloatFmt.f32.rnd asinLim * FloatFmt.f32.rnd asinLim) = .f (FloatFmt.f32.rnd (FloatFmt.f32.rnd asinLim * FloatFmt.f32.rnd asinLim)) :=
      FloatFmt.rne_f hF.ok (by rw [abs_of_nonneg (by positivity)]; nlinarith)
    have hin : FloatFmt.f32.rnd (a * a) < FloatFmt.f32.rnd (FloatFmt.f32.rnd asinLim * FloatFmt.f32.rnd asinLim) := by
      have h3 : FloatFmt.f32.rnd (a * a) ≤ 3 / 8 := FloatFmt.rnd_le (by have := FloatFmt.repr_eighths hF 3 (by norm_num); norm_num at this ⊢; exact this) haa
      linarith
    have hlit : ∀ env, (num "0.70710678118654752440").denote (ieeeInterp .f32 calls) env = .f (FloatFmt.f32.rnd asinLim) := fun env => by
      rw [denoteIE_num (d := ⟨70710678118654752440, 20⟩) _ _ _ rfl, asin_val.2, r1]
    simp only [Gen.asin, Gen.insideLim, Gen.edgeArg, ofFty_apply, List.map, bindParams]
    simp [hlit, r2, r3, hin]
    exact y1 _ _ (by simp)
  · have h3 : |y - q| ≤ 14 / 10 * FloatFmt.f32.eps := by
      refine y2.2.2.trans ((Rat.cast_le.2 k2).trans (le_of_eq ?_))
      rw [show FloatFmt.f32.eps = (ulp32 : ℝ) from eps_ulp32]
      push_cast; rfl
    have := abs_add_le (y - q) (q - Real.arcsin a)
    rw [sub_add_sub_cancel] at this
    linarith

/-- **C99** The accuracy test `test_asin` of the library passes on the generated 32-bit `asin`. -/
theorem C99_asin {ext : BdExt} {fx : FloatExt} {v : ℝ} (hs : SqrtOk ext) (hf : 600 ≤ ext.fuel) (hr : RoundsNear ext) (h : RoundedLits fx true v) (hv : v ≤ 1 / 10 ^ 12) :
    ∃ e rows, polynomialCode ext fx true .asin ⟨-70710678118654752440, 20⟩ ⟨70710678118654752440, 20⟩ = .ok e ∧
      testRows ext true (TestSpec.meth "asin") (TestSpec.neg (TestSpec.fl "0.5")) (TestSpec.fl "0.5") 1024 = .ok rows ∧
      ∀ calls g, TestPassesIE .f32 (rows.map (rowIE .f32)) (limitIE true 2 2) fun v => (Gen.asin e.toR).apply (ieeeInterp .f32 calls) g [v] := by
  obtain ⟨e, h1, h2⟩ := asin_code_enc hs (by omega) h hv
  obtain ⟨rows, V, a, b, r1, r2, x, r3, r4⟩ := passes_of_close hs hf hr true
    (TestSpec.maxAbs "asin" "test_asin" (TestSpec.meth "asin") (TestSpec.app "asin" [.path ["x"]]) (TestSpec.neg (TestSpec.fl "0.5")) (TestSpec.fl "0.5") 2 2 1024)
    (by simp [testSpecs]) _ _ _ _ _ rfl
  refine ⟨e, rows, h1, r1, fun calls g => r4 _ fun i hi => ?_⟩
  obtain ⟨rfl, rfl, rfl⟩ : V = Real.arcsin ∧ a = -(1 / 2) ∧ b = 1 / 2 := by
    simpa [testMeaning, TestSpec.maxAbs] using r2
  have hε0 : FloatFmt.f32.eps = 1 / 2 ^ 24 := eps_f32
  have hx : |x i| ≤ 51 / 100 := by
    have h3 := abs_le.1 (r3 i hi)
    have h4 : (i : ℝ) ≤ 1023 := by exact_mod_cast Nat.le_of_lt_succ hi
    have h5 : (0 : ℝ) ≤ i := by positivity
    push_cast at h3
    norm_num at h3
    rw [abs_le]; constructor <;> linarith
  have hb : ∀ y : ℝ, |y| ≤ 1 → |FloatFmt.f32.rnd y - y| ≤ FloatFmt.f32.eps / 2 := by
    intro y hy
    have := FloatFmt.rnd_below (F := .f32) (x := y) (b := 0) (by decide) (by simpa using hy)
    simpa using this
  have hx' := hb (x i) (by linarith)
  have hxf : |FloatFmt.f32.rnd (x i)| ≤ 17 / 32 := by
    have := abs_sub_abs_le_abs_sub (FloatFmt.f32.rnd (x i)) (x i)
    rw [hε0] at hx'
    norm_num at hx'
    linarith
  obtain ⟨y, y1, y2⟩ := asin_close h2 calls g hxf
  refine ⟨y, FloatFmt.f32.eps / 2, y1, fun z hz => hb z ?_, ?_⟩
  · have hL := arcsin_lipschitz (x := 0) (c := x i) (by norm_num) (by linarith)
    rw [Real.arcsin_zero, sub_zero, zero_sub, abs_neg] at hL
    -- a sharper bound of the arc sine
    have h6 : |Real.arcsin (x i)| ≤ 9 / 10 := by
      have h7 : Real.arcsin (√2 / 2) = Real.pi / 4 := by
        rw [← Real.sin_pi_div_four, Real.arcsin_sin] <;> linarith [Real.pi_pos]
      have h8 : (51 / 100 : ℝ) ≤ √2 / 2 := by
        have := Real.le_sqrt_of_sq_le (show (51 / 50 : ℝ) ^ 2 ≤ 2 by norm_num)
        linarith
      have h9 := Real.monotone_arcsin ((abs_le.1 hx).2.trans h8)
      have h10 := Real.monotone_arcsin ((neg_le_neg h8).trans (abs_le.1 hx).1)
      rw [Real.arcsin_neg] at h10
      have := Real.pi_lt_d2
      norm_num at this
      rw [abs_le]; constructor <;> linarith
    have := abs_sub_abs_le_abs_sub z (Real.arcsin (x i))
    norm_num at hz
    linarith
  · have hL := arcsin_lipschitz (x := x i) (c := FloatFmt.f32.rnd (x i)) (by linarith) (by linarith)
    have h3 := abs_add_le (y - Real.arcsin (FloatFmt.f32.rnd (x i))) (Real.arcsin (FloatFmt.f32.rnd (x i)) - Real.arcsin (x i))
    rw [sub_add_sub_cancel] at h3
    rw [abs_sub_comm (x i)] at hL
    have hlim : ((accuracyLimit true 2 2 : ℚ) : ℝ) = 4 * FloatFmt.f32.eps := by rw [hε0]; norm_num [accuracyLimit]
    show (1 + 3 * FloatFmt.f32.eps) * _ + FloatFmt.f32.eps / 100 ≤ _
    rw [hlim]
    rw [hε0] at *
    norm_num at *
    nlinarith

/-- The hypotheses can be met. -/
example : ∃ e rows, polynomialCode tableExt wideFx true .asin ⟨-70710678118654752440, 20⟩ ⟨70710678118654752440, 20⟩ = .ok e ∧
    testRows tableExt true (TestSpec.meth "asin") (TestSpec.neg (TestSpec.fl "0.5")) (TestSpec.fl "0.5") 1024 = .ok rows ∧
    TestPassesIE .f32 (rows.map (rowIE .f32)) (limitIE true 2 2) fun v => (Gen.asin e.toR).apply (ieeeInterp .f32 fun _ _ => .junk) (demoBits .f32) [v] := by
  obtain ⟨e, rows, h1, h2, h3⟩ := C99_asin (ext := tableExt) ⟨longExt_ok.1, longExt_ok.2⟩ (by decide) tableExt_rounds (wideFx_rounded true) (by norm_num)
  exact ⟨e, rows, h1, h2, h3 _ _⟩

end Verif

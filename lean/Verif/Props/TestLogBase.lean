import Verif.Props.TestLog

/-!
# The accuracy test of `log` passes at 32 bits

`log(x, base)` divides `log2(x)` by `log2(base)`; the test takes `base = 10.0`.
-/

namespace Verif
open RExpr Dec

noncomputable section

variable {ext : BdExt} {fx : FloatExt} {P : Gen.Parts} {calls : String → List RV → RV} {g : Name → RV} {v : ℝ}

/-- A bound of the code's `1 / log2(10.0)`. -/
def baseTenConst : Enc := ⟨3010299956639811952137 / 10 ^ 22, 3010299956639811952138 / 10 ^ 22, ulp32 * 2548 / 10000, true⟩

theorem baseTen_check : (log2Enc 3 ⟨-1 / 4, -1 / 4, 0, true⟩).ok = true ∧ (log2Enc 3 ⟨-1 / 4, -1 / 4, 0, true⟩).err ≤ ulp32 * 25533 / 10000 := by decide +kernel

theorem div_sample {p : RExpr} (hp : EncCode .f32 "x" p (fun t => Real.logb 2 (t + 3 / 2)) (1 / 2) (152 / 10 ^ 10) (polyEnc ulp32 .neither 9 log2Lits)) (hg : BitConsts .f32 g)
    {C : Enc} {c σ : ℝ} (hc : c ≠ 0) (hC : C.Of (1 / c) σ) {lim s : ℚ} (hσ : |σ| ≤ s) {k : ℤ} {m₀ h : ℚ} {n : ℕ} (hseg : logSeg lim s (timesEnc C) k m₀ h n = true)
    (hk : (-100 ≤ k ∧ k ≤ 100) ∧ 1 ≤ m₀ ∧ 0 < h ∧ 0 < n) {x : ℝ}
    (h1 : 2 ^ k * (m₀ : ℝ) ≤ FloatFmt.f32.rnd x) (h2 : FloatFmt.f32.rnd x ≤ 2 ^ k * (m₀ + n * h : ℝ)) (h3 : FloatFmt.f32.rnd x < 2 ^ (k + 1)) :
    ∃ R d y q, binIE .f32 .div ((Gen.log2 p).apply (ieeeInterp .f32 calls) g [.f (FloatFmt.f32.rnd x)]) (.f c) = .f y ∧ R.Of y q ∧ |q - σ * Real.logb 2 x| ≤ (d : ℚ) ∧
      passEnc ulp32 lim R d = true := by
  refine log_sample (calls := calls) (f := fun x => binIE .f32 .div ((Gen.log2 p).apply (ieeeInterp .f32 calls) g [x]) (.f c)) hp hg hσ (fun R hR => ?_) (fun a y hy R q hR hok => ?_)
    hk.1.1 hk.1.2 hk.2.1 hk.2.2.1 hk.2.2.2 hseg h1 h2 h3
  · have := Enc.round_ok hR
    simp only [Enc.mul, Bool.and_eq_true] at this
    exact this.1
  · obtain ⟨z1, z2⟩ := (hR.mul hC).round (FloatFmt.wide_fmtOf true) (ε := ulp32) eps_ulp32 hok
    refine ⟨_, ?_, mul_comm q σ ▸ z2⟩
    simp only [hy]
    rw [binIE_div .f32 hc, show y / c = y * (1 / c) by ring]
    exact z1

/-- The code's `log2(10.0)`. -/
theorem base_ten {p : RExpr} (hp : EncCode .f32 "x" p (fun t => Real.logb 2 (t + 3 / 2)) (1 / 2) (152 / 10 ^ 10) (polyEnc ulp32 .neither 9 log2Lits)) (hg : BitConsts .f32 g) :
    ∃ c, (Gen.log2 p).apply (ieeeInterp .f32 calls) g [.f 10] = .f c ∧ c ≠ 0 ∧ baseTenConst.Of (1 / c) (1 / Real.logb 2 10) := by
  have har : FloatFmt.f32.Repr 10 := by
    have := repr_1024 10240 (by decide)
    norm_num at this
    exact this
  obtain ⟨y, q, h1, h2, h3⟩ := log2_at (calls := calls) hp hg har (k := 3) (by norm_num) (by norm_num) (by norm_num) (by norm_num) (X := ⟨-1 / 4, -1 / 4, 0, true⟩)
    ⟨by norm_num, by norm_num, by norm_num⟩ baseTen_check.1
  have hd := inv_logb_ten_digits
  have hd1 := hd.1
  have hd2 := hd.2
  push_cast at hd1 hd2
  have hye : |y - q| ≤ (ulp32 * 25533 / 10000 : ℚ) := h2.2.2.trans (by exact_mod_cast baseTen_check.2)
  have hu : (ulp32 : ℝ) = 1 / 2 ^ 24 := by rw [← eps_ulp32]; exact eps_f32
  push_cast at hye
  rw [hu] at hye
  obtain ⟨L, hL⟩ : ∃ L, L = Real.logb 2 10 := ⟨_, rfl⟩
  rw [← hL] at h3 hd1 hd2 ⊢
  have hL0 : 0 < L := by
    have : 0 < 1 / L := by linarith
    exact one_div_pos.1 this
  have hLm : 1 / L * L = 1 := by field_simp
  have hL1 : 33219 / 10000 ≤ L := by
    by_contra hc
    nlinarith
  have hyL : |y - L| ≤ 25533 / 10000 / 2 ^ 24 + 152 / 10 ^ 10 := by
    rw [show y - L = (y - q) + (q - L) by ring]
    exact (abs_add_le _ _).trans (by norm_num at hye h3 ⊢; linarith)
  have hy1 : 33218 / 10000 ≤ y := by
    have := (abs_le.1 hyL).1
    norm_num at this ⊢
    linarith
  refine ⟨y, h1, by linarith, ⟨?_, ?_, ?_⟩⟩
  · rw [hL]; exact hd.1
  · rw [hL]; exact hd.2
  · have e : 1 / y - 1 / L = (L - y) / (y * L) := by field_simp
    rw [e, abs_div, abs_sub_comm, abs_of_pos (show 0 < y * L by positivity), div_le_iff₀ (by positivity)]
    have : (33218 / 10000 * (33219 / 10000) : ℝ) ≤ y * L := by gcongr
    refine hyL.trans ?_
    simp only [baseTenConst]
    push_cast
    rw [hu]
    refine le_trans ?_ (mul_le_mul_of_nonneg_left this (by norm_num))
    norm_num

theorem log_2_seg0 : logSeg (accuracyLimit true 2 2) (3010300 / 10 ^ 7) (timesEnc baseTenConst) (-1) (60 / 32) (1 / 32) 4 = true := logSeg_table (j := 28) (by decide +kernel) (by norm_num)
theorem log_2_seg1 : logSeg (accuracyLimit true 2 2) (3010300 / 10 ^ 7) (timesEnc baseTenConst) (0) (1) (1 / 32) 32 = true := logSeg_table (j := 0) (by decide +kernel) (by norm_num)
theorem log_2_seg2 : logSeg (accuracyLimit true 2 2) (3010300 / 10 ^ 7) (timesEnc baseTenConst) (1) (1) (1 / 32) 32 = true := logSeg_table (j := 0) (by decide +kernel) (by norm_num)
theorem log_2_seg3 : logSeg (accuracyLimit true 2 2) (3010300 / 10 ^ 7) (timesEnc baseTenConst) (2) (1) (1 / 32) 32 = true := logSeg_table (j := 0) (by decide +kernel) (by norm_num)
theorem log_2_seg4 : logSeg (accuracyLimit true 2 2) (3010300 / 10 ^ 7) (timesEnc baseTenConst) (3) (1) (1 / 32) 7 = true := logSeg_table (j := 0) (by decide +kernel) (by norm_num)
theorem log_2_seg5 : logSeg (accuracyLimit true 2 2) (3010300 / 10 ^ 7) (timesEnc baseTenConst) (3) (39 / 32) (1 / 256) 7 = true := by decide +kernel

/-- **C99** `test_log_2` passes. -/
theorem C99_log_2 (h : TestLibrary ext fx true P calls g v) : ∀ s ∈ testSpecs, s.name = "test_log_2" → AccuracyTest ext true calls g s := by
  intro s hm hn
  obtain ⟨p, hp, hlog⟩ := h.log2
  have hs : s = TestSpec.maxAbs "log" "test_log_2" (TestSpec.meth "log10") (TestSpec.app "log" [.path ["x"], TestSpec.asFty "10.0"]) (TestSpec.fl "1.0") (litInt "10") 2 2 237 := by
    revert hn; revert s; simp [testSpecs, TestSpec.maxAbs]
  subst hs
  refine h.test hm rfl (V := Real.logb 10) (a := 1) (b := 10) (by simp [testMeaning, TestSpec.maxAbs]) (by norm_num) (by norm_num) fun x hx1 hx2 => ?_
  have hd := inv_logb_ten_digits
  have hd' := hd
  push_cast at hd'
  norm_num at hd'
  rw [← one_div] at hd'
  obtain ⟨c, hc, hc0, hC⟩ := base_ten (calls := calls) hp h.bits
  have hσ : |1 / Real.logb 2 10| ≤ ((3010300 / 10 ^ 7 : ℚ) : ℝ) := by rw [abs_of_nonneg] <;> push_cast <;> linarith
  have hfn : LinkedIE .f32 calls g Gen.log := h.fn "log" (by decide +kernel) rfl
  have hval : ∀ x, (TestSpec.maxAbs "log" "test_log_2" (TestSpec.meth "log10") (TestSpec.app "log" [.path ["x"], TestSpec.asFty "10.0"]) (TestSpec.fl "1.0") (litInt "10") 2 2 237).value .f32 calls g x =
      binIE .f32 .div ((Gen.log2 p).apply (ieeeInterp .f32 calls) g [x]) (.f c) := fun x => by
    rw [← hlog, ← hc, ← hlog]
    have h10 : FloatFmt.f32.rne 10 = .f 10 := by
      have := repr_1024 10240 (by decide)
      norm_num at this
      exact FloatFmt.rne_repr this (by rw [show FloatFmt.f32.bias = 127 by decide]; norm_num)
    have hcall : (TestSpec.maxAbs "log" "test_log_2" (TestSpec.meth "log10") (TestSpec.app "log" [.path ["x"], TestSpec.asFty "10.0"]) (TestSpec.fl "1.0") (litInt "10") 2 2 237).value
        .f32 calls g x = calls "log" [x, .f 10] := by
      have hlit : ∀ env, (RExpr.lit (.float "10.0".toList "")).denote (ieeeInterp .f32 calls) env = .f 10 := fun env => by
        rw [← h10]
        exact (denoteIE_num (d := ⟨100, 1⟩) .f32 calls env rfl).trans (by norm_num [Dec.val, zpow_neg])
      show calls "log" [x, castIE .f32 ["fty"] ((RExpr.lit (.float "10.0".toList "")).denote (ieeeInterp .f32 calls) _)] = _
      rw [hlit]
      rfl
    rw [hcall]
    refine (hfn [x, .f 10]).trans ?_
    simp only [Gen.log, ofFty_apply, List.map, bindParams]
    simp
  simp only [hval]
  rw [show Real.logb 10 x = 1 / Real.logb 2 10 * Real.logb 2 x by rw [mul_comm, logb_mul_log10]]
  norm_num at hx1 hx2
  have hr := rnd_between (x := x) (repr_1024 1000 (by decide)) (repr_1024 10208 (by decide)) (by norm_num; linarith) (by norm_num; linarith)
  norm_num at hr
  rcases lt_or_ge (FloatFmt.f32.rnd x) (1) with hlt | hge
  · exact div_sample hp h.bits hc0 hC hσ log_2_seg0 ⟨by norm_num, by norm_num, by norm_num, by norm_num⟩ (by norm_num; linarith) (by norm_num; linarith) (by norm_num; linarith)
  rcases lt_or_ge (FloatFmt.f32.rnd x) (2) with hlt | hge
  · exact div_sample hp h.bits hc0 hC hσ log_2_seg1 ⟨by norm_num, by norm_num, by norm_num, by norm_num⟩ (by norm_num; linarith) (by norm_num; linarith) (by norm_num; linarith)
  rcases lt_or_ge (FloatFmt.f32.rnd x) (4) with hlt | hge
  · exact div_sample hp h.bits hc0 hC hσ log_2_seg2 ⟨by norm_num, by norm_num, by norm_num, by norm_num⟩ (by norm_num; linarith) (by norm_num; linarith) (by norm_num; linarith)
  rcases lt_or_ge (FloatFmt.f32.rnd x) (8) with hlt | hge
  · exact div_sample hp h.bits hc0 hC hσ log_2_seg3 ⟨by norm_num, by norm_num, by norm_num, by norm_num⟩ (by norm_num; linarith) (by norm_num; linarith) (by norm_num; linarith)
  rcases lt_or_ge (FloatFmt.f32.rnd x) (39 / 4) with hlt | hge
  · exact div_sample hp h.bits hc0 hC hσ log_2_seg4 ⟨by norm_num, by norm_num, by norm_num, by norm_num⟩ (by norm_num; linarith) (by norm_num; linarith) (by norm_num; linarith)
  exact div_sample hp h.bits hc0 hC hσ log_2_seg5 ⟨by norm_num, by norm_num, by norm_num, by norm_num⟩ (by norm_num; linarith) (by norm_num; linarith) (by norm_num; linarith)

end

end Verif

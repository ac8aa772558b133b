import Verif.Props.HistogramSpecs
import Verif.Props.IeeeNormal
import Verif.Props.QnormTest
import Verif.Props.TestPasses

/-!
# C94, C96, C97: the tests of `runif`, `qnorm` and `rnorm`, run on the whole generated library

`C97_rnorm_fails` takes any density that is close enough.  Here the density is the generated `dnorm`, which the test calls, and the samples are those of the
generated `rnorm`, with the generated `runif` and `qnorm` behind it.  Likewise the samples of the test of `runif` are those of the generated `runif`.
-/

namespace Verif
open Gen RExpr

theorem repr_of_mul {F : FloatFmt} {A B : RV} {y : ℝ} (h : binIE F .mul A B = .f y) : F.Repr y := by
  cases A <;> cases B <;> simp only [binIE, mulIE, binRV] at h <;> first
    | exact FloatFmt.repr_of_rne h
    | cases h
    | (split at h <;> cases h)

theorem rat_of_repr {F : FloatFmt} {y : ℝ} (h : F.Repr y) : ∃ q : ℚ, y = q := by
  obtain ⟨m, e, h, -, -⟩ := h
  exact ⟨m * 2 ^ e, by rw [h]; push_cast; rfl⟩

theorem normalDensity_std (x : ℝ) : normalDensity 0 1 x = normalPdf x := by
  unfold normalDensity normalPdf
  rw [sub_zero, one_pow, mul_one, one_mul]
  ring

theorem normalPdf_le_one (x : ℝ) : 0 < normalPdf x ∧ normalPdf x ≤ 1 := by
  have h1 : Real.exp (-x ^ 2 / 2) ≤ 1 := Real.exp_le_one_iff.2 (by nlinarith [sq_nonneg x])
  have h2 : 1 ≤ √(2 * Real.pi) := Real.one_le_sqrt.2 (by linarith [Real.pi_gt_three])
  have h3 : 1 / √(2 * Real.pi) ≤ 1 := by rw [div_le_one (by linarith)]; exact h2
  have h4 : 0 < 1 / √(2 * Real.pi) := by positivity
  unfold normalPdf
  exact ⟨mul_pos h4 (Real.exp_pos _), mul_le_one₀ h3 (Real.exp_pos _).le h1⟩

section
variable {ext : BdExt} {fx : FloatExt} {P : Gen.Parts} {calls : String → List RV → RV} {g : Name → RV} {v : ℝ}

theorem Library.fn_all {b32 : Bool} (h : Library ext fx b32 P calls g) (n : String) {f : RFn} (hn : n ∈ outputNames ["all"]) (hf : Gen.items b32 P n = [.fn f]) :
    LinkedIE (fmtOf b32) calls g f := by
  refine h.linked f ((mem_fnsOf _ _).2 ?_)
  rw [outputItems_names]
  exact List.mem_flatMap.2 ⟨n, hn, by rw [hf]; simp⟩

/-- The generated 64-bit `dnorm` is close to the density. -/
theorem dnorm_near (h : TestLibrary ext fx false P calls g v) (hv : v ≤ 1 / 10 ^ 16) {x : ℝ} (hx : |x| ≤ 2) :
    ∃ d : ℚ, calls "dnorm" [.f x, .f 0, .f 1] = .f d ∧ |(d : ℝ) - normalPdf x| ≤ 1 / 10 ^ 5 := by
  have he : (fmtOf false).eps = 1 / 2 ^ 53 := eps_f64
  have hτ := tiny_le_100 false
  have hτ0 := FloatFmt.tiny_pos (F := fmtOf false)
  have hn := h.lits.ieee.nonneg
  have hu : (fmtOf false).eps * (1 + v) + v ≤ 1 / 10 ^ 15 := by rw [he]; norm_num at hv ⊢; linarith
  have hw : (fmtOf false).eps * (fmtOf false).tiny ≤ 1 / 10 ^ 15 := by rw [he]; norm_num at hτ ⊢; linarith
  have hlib : LibraryOk ext fx false P calls g ((fmtOf false).eps * (1 + v) + v) ((fmtOf false).eps * (fmtOf false).tiny) :=
    ⟨h.toLibrary, h.sqrt, by have := h.fuel; omega, h.lits.ieee, hu.trans (by norm_num), hw.trans (by norm_num)⟩
  obtain ⟨y, hy, hb⟩ := C83_dnorm hlib (x := x) (m := 0) (s := 1) (by
    rw [sub_zero]
    calc |x| ≤ 2 ^ 1 := by simpa using hx
      _ ≤ _ := pow_le_pow_right₀ (by norm_num) (by decide)) (by norm_num) (by norm_num)
  obtain ⟨k, c, -, -, -, -, -, hr⟩ := hlib.dnorm_run
  obtain ⟨q, rfl⟩ := rat_of_repr (repr_of_mul ((hr _ _ _).symm.trans hy))
  refine ⟨q, hy, ?_⟩
  rw [normalDensity_std] at hb
  obtain ⟨hp0, hp1⟩ := normalPdf_le_one x
  have hx2 : ((x - 0) / 1) ^ 2 ≤ 4 := by
    rw [sub_zero, div_one]; nlinarith [abs_le.1 hx]
  have hB0 := hlib.exp2_small.1
  have hB : exp2Bound false ((fmtOf false).eps * (1 + v) + v) ((fmtOf false).eps * (fmtOf false).tiny) ≤ 1 / 10 ^ 6 := by
    have hs := sqrt_two_bounds
    have h2 : exp2Err false + 2 * ((fmtOf false).eps * (1 + v) + v) + 12 * ((fmtOf false).eps * (fmtOf false).tiny) + exp2Ops false * (fmtOf false).eps ≤ 1 / 10 ^ 7 := by
      have h3 : exp2Err false ≤ 1 / 10 ^ 8 := by unfold exp2Err; norm_num
      have h4 : exp2Ops false * (fmtOf false).eps ≤ 1 / 10 ^ 9 := by rw [he]; unfold exp2Ops; norm_num
      norm_num at hu hw h3 h4 ⊢; linarith
    unfold exp2Bound
    calc _ ≤ 2 * (1 / 10 ^ 7) + 5 * (fmtOf false).eps := by
          refine add_le_add (mul_le_mul (by linarith [hs.2]) h2 (exp2_poly_small h.lits.ieee hlib.hu hlib.hw).1 (by norm_num)) le_rfl
      _ ≤ 1 / 10 ^ 6 := by rw [he]; norm_num
  refine hb.trans ?_
  calc _ ≤ (1 / 10 ^ 6 + (fmtOf false).eps * (18 * 4 + 11)) * 1 + (fmtOf false).tiny * 2 := by
        refine add_le_add (mul_le_mul (add_le_add hB (mul_le_mul_of_nonneg_left (by linarith) FloatFmt.eps_pos.le)) hp1 hp0.le ?_) (by norm_num)
        have := FloatFmt.eps_pos (F := fmtOf false); positivity
    _ ≤ 1 / 10 ^ 5 := by rw [he]; norm_num at hτ ⊢; linarith

theorem histogram_congr {min max : ℚ} {nb N : ℕ} {a b : ℕ → Fl} (h : ∀ i < N, a i = b i) : histogram min max nb N a = histogram min max nb N b := by
  unfold histogram
  rw [List.map_congr_left fun i hi => h i (List.mem_range.1 hi)]

theorem histogramPasses_congr {min max : ℚ} {pdf : ℚ → Fl} {a b : ℕ → Fl} (h : ∀ i < 1000000, a i = b i) : histogramPasses min max pdf a = histogramPasses min max pdf b := by
  unfold histogramPasses
  rw [histogram_congr h]

/-- **C94** The histogram test of `runif` passes on the generated 64-bit library, with the range, the samples and the density that its specification names. -/
theorem C94_library (h : TestLibrary ext fx false P calls g v) : ∀ s ∈ testSpecs, s.name = "test_runif" → s.Range 0 1 ∧ (∀ ext n, EvalsTo ext n s.ref 1 0) ∧
    (∀ i < 1000000, ∃ y : ℚ, s.sampleAt calls g i = .f y) ∧
    ∀ sample : ℕ → Fl, (∀ i < 1000000, ∀ y : ℚ, s.sampleAt calls g i = .f y → sample i = .num y) → histogramPasses 0 1 (fun _ => .num 1) sample = true := by
  intro s hm hn
  obtain ⟨h1, h2, h3⟩ := C94_spec s hm hn
  have lr : LinkedIE .f64 calls g Gen.runif := h.fn_all "runif" (by decide +kernel) rfl
  have h4 := h3 calls g h.bits fun i lo hi _ _ => lr _
  refine ⟨h1, h2, fun i hi => (h4 i hi).imp fun y hy => hy.2, fun sample hs => ?_⟩
  rw [← C94_passes.1]
  refine histogramPasses_congr fun i hi => ?_
  obtain ⟨y, k1, k2⟩ := h4 i hi
  rw [k1, hs i hi y k2]

/-- **C97** The histogram test of `rnorm` fails on the generated 64-bit library, with the range, the samples and the density that its specification names. -/
theorem C97_library (h : TestLibrary ext fx false P calls g v) (hv : v ≤ 1 / 10 ^ 16) : ∀ s ∈ testSpecs, s.name = "test_rnorm" → s.Range (-2) 2 ∧
    ∀ (sample : ℕ → Fl) (pdf : ℚ → Fl), (∀ i < 1000000, ∀ y : ℚ, s.sampleAt calls g i = .f y → sample i = .num y) →
      (∀ x d : ℚ, s.ref.toR.denote (ieeeInterp .f64 calls) (fun n => if n = ["x"] then .f x else g n) = .f d → pdf x = .num d) →
      histogramPasses (-2) 2 pdf sample = false := by
  intro s hm hn
  obtain ⟨hr, hd, hc⟩ := C95_spec s hm hn
  refine ⟨hr, fun sample pdf hs hp => ?_⟩
  have he : (fmtOf false).eps = 1 / 2 ^ 53 := eps_f64
  have hτ := tiny_le_100 false
  have hu : (fmtOf false).eps * (1 + v) + v ≤ 1 / 10 ^ 15 := by rw [he]; norm_num at hv ⊢; linarith
  have hw : (fmtOf false).eps * (fmtOf false).tiny ≤ 1 / 10 ^ 15 := by rw [he]; norm_num at hτ ⊢; linarith
  obtain ⟨e, h1, h2⟩ := C97_rnorm_fails h.sqrt (by have := h.fuel; omega) h.lits.ieee hu hw
  have ha := h.approx .qnorm (by simp [approxSpecs]) _ _ e rfl h1
  have lq : LinkedIE .f64 calls g (Gen.qnorm e.toR) := h.fn_all "qnorm" (by decide +kernel) (by rw [← ha]; rfl)
  have lr : LinkedIE .f64 calls g Gen.runif := h.fn_all "runif" (by decide +kernel) rfl
  have ln : LinkedIE .f64 calls g Gen.rnorm := h.fn_all "rnorm" (by decide +kernel) rfl
  refine h2 calls calls g g sample pdf h.bits (fun i lo hi _ _ => lr _) (fun a => lq _) (fun i hi y hy => hs i hi y ?_) ?_
  · rw [hc]; exact (ln _).trans hy
  · obtain ⟨d, k1, k2⟩ := dnorm_near h hv (x := 31 / 16) (by rw [abs_le]; constructor <;> norm_num)
    refine ⟨d, hp (31 / 16) d ?_, k2⟩
    rw [hd]
    rw [← k1]
    simp

/-- **C96** The accuracy test of `qnorm` fails on the generated 64-bit library. -/
theorem C96_library (h : TestLibrary ext fx false P calls g v) (hv : v ≤ 1 / 10 ^ 16) : ∀ s ∈ testSpecs, s.name = "test_qnorm_1" → ¬AccuracyTest ext false calls g s := by
  intro s hm hn
  obtain rfl : s = TestSpec.maxAbs "qnorm" "test_qnorm_1" (TestSpec.meth01 "qnorm") (TestSpec.app "qnorm" [.path ["x"], TestSpec.asFty "0.0", TestSpec.asFty "1.0"])
      (TestSpec.fl "0.0001") (TestSpec.fl "0.999") 1000000 1000000 237 := by
    revert hn; revert s; simp [testSpecs, TestSpec.maxAbs]
  have he : (fmtOf false).eps = 1 / 2 ^ 53 := eps_f64
  have hτ := tiny_le_100 false
  have hu : (fmtOf false).eps * (1 + v) + v ≤ 1 / 10 ^ 15 := by rw [he]; norm_num at hv ⊢; linarith
  have hw : (fmtOf false).eps * (fmtOf false).tiny ≤ 1 / 10 ^ 15 := by rw [he]; norm_num at hτ ⊢; linarith
  obtain ⟨e, rows, h1, h2, h3⟩ := C96_test_fails h.sqrt h.fuel h.rounds h.lits.ieee hu hw
  have ha := h.approx .qnorm (by simp [approxSpecs]) _ _ e rfl h1
  have lq : LinkedIE .f64 calls g (Gen.qnorm e.toR) := h.fn_all "qnorm" (by decide +kernel) (by rw [← ha]; rfl)
  have hval : TestSpec.value (TestSpec.maxAbs "qnorm" "test_qnorm_1" (TestSpec.meth01 "qnorm") (TestSpec.app "qnorm" [.path ["x"], TestSpec.asFty "0.0", TestSpec.asFty "1.0"])
      (TestSpec.fl "0.0001") (TestSpec.fl "0.999") 1000000 1000000 237) .f64 calls g = fun x => (Gen.qnorm e.toR).apply (ieeeInterp .f64 calls) g [x, .f 0, .f 1] := by
    funext x
    have hF : FloatFmt.f64.Wide := FloatFmt.wide_fmtOf false
    have n0 : ∀ env, (RExpr.lit (.float "0.0".toList "")).denote (ieeeInterp .f64 calls) env = .f 0 := fun env => numIE_0 hF
    have n1 : ∀ env, (RExpr.lit (.float "1.0".toList "")).denote (ieeeInterp .f64 calls) env = .f 1 := fun env => numIE_1 hF
    show calls "qnorm" [x, castIE .f64 ["fty"] ((RExpr.lit (.float "0.0".toList "")).denote (ieeeInterp .f64 calls) _),
      castIE .f64 ["fty"] ((RExpr.lit (.float "1.0".toList "")).denote (ieeeInterp .f64 calls) _)] = _
    rw [n0, n1]
    exact lq _
  rintro ⟨rows', k1, k2⟩
  have h5 : rows' = rows := Res.ok.inj (k1.symm.trans h2)
  subst h5
  have k3 : TestPassesIE .f64 _ _ (TestSpec.value _ .f64 calls g) := k2
  rw [hval] at k3
  exact h3 calls g k3

end

/-- There is such a library. -/
example : ∃ calls, ∀ s ∈ testSpecs, s.name = "test_qnorm_1" → ¬AccuracyTest tableExt false calls (bitsBy tableExt false) s := by
  obtain ⟨calls, h⟩ := C99_library_exists (ext := tableExt) ⟨longExt_ok.1, longExt_ok.2⟩ (by decide) tableExt_rounds false
  exact ⟨calls, C96_library h (by norm_num)⟩

open Classical in
/-- There is such a library, and there are numbers that meet the conditions on samples and density. -/
example : ∃ calls, (∀ s ∈ testSpecs, s.name = "test_runif" → ∃ sample : ℕ → Fl,
      (∀ i < 1000000, ∀ y : ℚ, s.sampleAt calls (bitsBy tableExt false) i = .f y → sample i = .num y) ∧ histogramPasses 0 1 (fun _ => .num 1) sample = true) ∧
    ∀ s ∈ testSpecs, s.name = "test_rnorm" → ∃ sample pdf,
      (∀ i < 1000000, ∀ y : ℚ, s.sampleAt calls (bitsBy tableExt false) i = .f y → sample i = .num y) ∧ histogramPasses (-2) 2 pdf sample = false := by
  obtain ⟨calls, h⟩ := C99_library_exists (ext := tableExt) ⟨longExt_ok.1, longExt_ok.2⟩ (by decide) tableExt_rounds false
  let num : RV → Fl := fun r => if h : ∃ y : ℚ, r = .f y then .num h.choose else .nan
  have hnum : ∀ (r : RV) (y : ℚ), r = .f y → num r = .num y := by
    intro r y hy
    have hex : ∃ y : ℚ, r = .f y := ⟨y, hy⟩
    show (if h : _ then _ else _) = _
    rw [dif_pos hex]
    have h2 := RV.f.inj (hy.symm.trans hex.choose_spec)
    rw [show hex.choose = y by exact_mod_cast h2.symm]
  refine ⟨calls, fun s hm hn => ⟨fun i => num (s.sampleAt calls (bitsBy tableExt false) i), fun i _ y hy => hnum _ _ hy,
    (C94_library h s hm hn).2.2.2 _ fun i _ y hy => hnum _ _ hy⟩, fun s hm hn => ?_⟩
  exact ⟨fun i => num (s.sampleAt calls (bitsBy tableExt false) i), _, fun i _ y hy => hnum _ _ hy,
    (C97_library h (by norm_num) s hm hn).2 _ (fun x => num _) (fun i _ y hy => hnum _ _ hy) fun x d hd => hnum _ _ hd⟩

end Verif

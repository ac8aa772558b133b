import Verif.Props.TestRnorm
import Verif.Props.TestRows

/-!
# C94, C95: the histograms are those that the table of tests asks for

The theorems about the histograms of `runif` and `rnorm` name a range and a call.  Here both are read off the specification.
-/

namespace Verif
open Gen RExpr

/-- The call of a histogram test at the index `i`. -/
noncomputable def TestSpec.sampleAt (s : TestSpec) (calls : String → List RV → RV) (g : Name → RV) (i : ℕ) : RV :=
  s.call.denote (ieeeInterp .f64 calls) fun n => if n = ["i"] then .i i else g n

/-- The range of a histogram test, as numbers. -/
def TestSpec.Range (s : TestSpec) (a b : ℝ) : Prop :=
  ∃ lo hi, s.test = .histogram lo hi ∧ ∀ ext n, EvalsTo ext n lo a 0 ∧ EvalsTo ext n hi b 0

/-- **C94** `test_runif` counts on [0, 1], expects the density 1 everywhere, and its samples are those of C94. -/
theorem C94_spec : ∀ s ∈ testSpecs, s.name = "test_runif" → s.Range 0 1 ∧ (∀ ext n, EvalsTo ext n s.ref 1 0) ∧
    ∀ calls g, BitConsts .f64 g → CallsRunif calls g → ∀ i < 1000000, ∃ y : ℚ, runifSample i = .num y ∧ s.sampleAt calls g i = .f y := by
  intro s hm hn
  obtain rfl : s = ⟨"runif", "test_runif", litInt "1", TestSpec.app "runif" [.path ["i"], TestSpec.rfl "0.0", TestSpec.rfl "1.0"],
      .histogram (TestSpec.fl "0.0") (TestSpec.fl "1.0")⟩ := by
    revert hn; revert s; simp [testSpecs, TestSpec.maxAbs]
  refine ⟨⟨_, _, rfl, fun ext n => ⟨?_, evals_1⟩⟩, fun ext n => ?_, fun calls g hg hr i hi => ?_⟩
  · simpa using evals_fl (ext := ext) (n := n) "0.0" 0 (by decide +kernel)
  · simpa using evals_int (ext := ext) (n := n) "1" 1 rfl
  · obtain ⟨y, y1, y2⟩ := C94_sample (calls := calls) hg i hi
    refine ⟨y, y1, ?_⟩
    have hF := FloatFmt.wide_fmtOf false
    have n0 : ∀ env, (TestSpec.rfl "0.0").denote (ieeeInterp .f64 calls) env = .f 0 := fun env => numIE_0 hF
    have n1 : ∀ env, (TestSpec.rfl "1.0").denote (ieeeInterp .f64 calls) env = .f 1 := fun env => numIE_1 hF
    show calls "runif" [.i i, (TestSpec.rfl "0.0").denote (ieeeInterp .f64 calls) _, (TestSpec.rfl "1.0").denote (ieeeInterp .f64 calls) _] = _
    rw [n0, n1, hr _ _ _ (by positivity) (by exact_mod_cast (by omega : i < 2 ^ 64))]
    exact y2

/-- **C95** `test_rnorm` counts on [-2, 2], compares with `dnorm(x, 0, 1)`, and its samples are `rnorm(i, 0, 1)`, which C95 and C97 are about. -/
theorem C95_spec : ∀ s ∈ testSpecs, s.name = "test_rnorm" → s.Range (-2) 2 ∧
    (∀ (calls : String → List RV → RV) (env : Name → RV), s.ref.toR.denote (ieeeInterp .f64 calls) env = calls "dnorm" [env ["x"], .f 0, .f 1]) ∧
    ∀ calls g i, s.sampleAt calls g i = calls "rnorm" [.i i, .f 0, .f 1] := by
  intro s hm hn
  obtain rfl : s = ⟨"rnorm", "test_rnorm", .call (.path ["dnorm"]) [TestSpec.x, TestSpec.fl "0.0", TestSpec.fl "1.0"],
      TestSpec.app "rnorm" [.path ["i"], TestSpec.rfl "0.0", TestSpec.rfl "1.0"], .histogram (TestSpec.neg (TestSpec.fl "2.0")) (TestSpec.fl "2.0")⟩ := by
    revert hn; revert s; simp [testSpecs, TestSpec.maxAbs]
  have e2 : ∀ ext n, EvalsTo ext n (TestSpec.fl "2.0") 2 0 := fun ext n => by simpa using evals_fl (ext := ext) (n := n) "2.0" 2 (by decide +kernel)
  have hF := FloatFmt.wide_fmtOf false
  have n0 : ∀ calls env, (TestSpec.rfl "0.0").denote (ieeeInterp .f64 calls) env = .f 0 := fun calls env => numIE_0 hF
  have n1 : ∀ calls env, (TestSpec.rfl "1.0").denote (ieeeInterp .f64 calls) env = .f 1 := fun calls env => numIE_1 hF
  refine ⟨⟨_, _, rfl, fun ext n => ⟨C67_neg (e2 ext n), e2 ext n⟩⟩, fun calls env => ?_, fun calls g i => ?_⟩
  · show calls "dnorm" [env ["x"], (TestSpec.rfl "0.0").denote (ieeeInterp .f64 calls) _, (TestSpec.rfl "1.0").denote (ieeeInterp .f64 calls) _] = _
    rw [n0, n1]
  · show calls "rnorm" [.i i, (TestSpec.rfl "0.0").denote (ieeeInterp .f64 calls) _, (TestSpec.rfl "1.0").denote (ieeeInterp .f64 calls) _] = _
    rw [n0, n1]

/-- There are such tests, and a library that meets the hypotheses. -/
example : (∃ s ∈ testSpecs, s.name = "test_runif" ∧ ∃ y : ℚ, s.sampleAt rnormCalls (demoBits .f64) 5 = .f y) ∧ ∃ s ∈ testSpecs, s.name = "test_rnorm" := by
  refine ⟨?_, by decide⟩
  obtain ⟨s, hm, hn⟩ : ∃ s ∈ testSpecs, s.name = "test_runif" := by decide
  obtain ⟨y, -, h⟩ := (C94_spec s hm hn).2.2 rnormCalls (demoBits .f64) (demo_bits _) demo_runif 5 (by norm_num)
  exact ⟨s, hm, hn, y, h⟩

end Verif

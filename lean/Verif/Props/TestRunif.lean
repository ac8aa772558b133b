import Verif.Props.RunifIeee
import Verif.Props.Test
import Verif.Model.TestSpecs
import Verif.Lemmas.RunifCounts

/-! # C94: the histogram test of `runif`, run on the generated `runif` -/

namespace Verif
open Gen RExpr RunifCount

/-- The samples of the test, `runif(i, 0.0, 1.0)` at 64 bits. -/
def runifSample (i : ℕ) : Fl := .num ((splitmixBits i : ℚ) / 2 ^ 52)

section
variable {calls : String → List RV → RV} {g : Name → RV}

/-- **C94** These are what the generated function returns, in float arithmetic. -/
theorem C94_sample (hg : BitConsts .f64 g) (i : ℕ) (hi : i < 1000000) :
    ∃ y : ℚ, runifSample i = .num y ∧ Gen.runif.apply (ieeeInterp .f64 calls) g [.i i, .f 0, .f 1] = .f y := by
  refine ⟨_, rfl, ?_⟩
  have r1 : FloatFmt.f64.Repr 1 := by
    have := FloatFmt.repr_int (F := .f64) (FloatFmt.wide_fmtOf false).ok (k := 1) (by rw [abs_one]; exact one_le_pow₀ (by norm_num))
    exact_mod_cast this
  have hlt := splitmixBits_lt i
  have h53 : splitmixBits i ≤ 2 ^ 53 := by omega
  rw [runif_finite hg _ (by positivity) (by exact_mod_cast (by omega : i < 2 ^ 64)) FloatFmt.repr_zero r1 (by norm_num) (by rw [abs_zero]; positivity)
    (by rw [abs_one]; exact one_le_pow₀ (by norm_num)), sub_zero, FloatFmt.rnd_of_repr r1, mul_one, add_zero, FloatFmt.rnd_of_repr (FloatFmt.rnd_repr _),
    FloatFmt.rnd_of_repr (repr_fraction h53)]
  push_cast; rfl

end

/-- The generator on natural numbers. -/
theorem splitmix_nat (i : ℕ) : splitmix64 i = splitmixNat i ∧ splitmixNat i < 2 ^ 64 := by
  obtain ⟨z2, hz2, h, hb⟩ : ∃ z2 : ℕ, z2 < 2 ^ 64 ∧ splitmix64 i = ((z2 ^^^ z2 >>> 31 : ℕ) : ℤ) ∧ splitmixNat i = z2 ^^^ z2 >>> 31 := by
    refine ⟨_, ?_, ?_, rfl⟩
    · exact Nat.mod_lt _ (by norm_num)
    · unfold splitmix64
      simp only [Nat.shiftRight_eq_div_pow]
      norm_cast
  rw [hb]
  exact ⟨h, Nat.xor_lt_two_pow hz2 (lt_of_le_of_lt (by rw [Nat.shiftRight_eq_div_pow]; exact Nat.div_le_self _ _) hz2)⟩

theorem bits_nat (i : ℕ) : splitmixBits i = splitmixNat i >>> 2 % 2 ^ 52 := by
  obtain ⟨h, hz⟩ := splitmix_nat i
  rw [splitmixBits, h]
  generalize splitmixNat i = z at hz
  rw [Nat.shiftRight_eq_div_pow]
  have : ((z : ℤ) % 2 ^ 64 / 4).toNat = z / 4 := by omega
  rw [this]

/-- The bucket of a sample from its bits. -/
theorem bits_bucket (i : ℕ) : (splitmixBits i) / 2 ^ 47 = bucket i := by
  obtain ⟨-, hz⟩ := splitmix_nat i
  rw [bits_nat, bucket, bucketOf]
  generalize splitmixNat i = z at hz
  rw [Nat.shiftRight_eq_div_pow, Nat.shiftRight_eq_div_pow]
  omega

theorem runif_bucket (i : ℕ) : bucketIndex 0 1 32 (runifSample i) = bucket i := by
  show ⌊((splitmixBits i : ℚ) / 2 ^ 52 - 0) / (1 - 0) * ((32 : ℕ) : ℚ)⌋ = _
  rw [show ((splitmixBits i : ℚ) / 2 ^ 52 - 0) / (1 - 0) * ((32 : ℕ) : ℚ) = ((splitmixBits i : ℤ) : ℚ) / ((2 ^ 47 : ℕ) : ℚ) by push_cast; ring, Rat.floor_intCast_div_natCast,
    ← bits_bucket]
  push_cast; rfl

theorem histogram_length (min max : ℚ) (nb niter : ℕ) (sample : ℕ → Fl) : (histogram min max nb niter sample).length = nb := by
  have key : ∀ (l : List Fl) (h : List ℕ), (l.foldl (countSample min max nb) h).length = h.length := by
    intro l
    induction l with
    | nil => intro h; rfl
    | cons y ys ih => intro h; rw [List.foldl_cons, ih, countSample_length]
  unfold histogram
  rw [key, List.length_replicate]

theorem runif_histogram (N : ℕ) (hN : N = 1000000) : histogram 0 1 32 N runifSample = runifCounts := by
  refine List.ext_getElem (by rw [histogram_length]; rfl) fun k h1 h2 => ?_
  rw [histogram_length] at h1
  have h := C62_counts 0 1 32 N runifSample k h1
  rw [List.getD_eq_getElem _ _ (by rw [histogram_length]; exact h1)] at h
  rw [h, ← List.getD_eq_getElem _ 0 h2, ← count_million k h1, ← hN]
  rw [Finset.card_filter, List.countP_eq_length_filter, ← Finset.card_filter]
  have e : (List.range N).filter (fun i => decide (bucketIndex 0 1 32 (runifSample i) = (k : ℤ))) = (List.range N).filter (fun i => decide (bucket i = k)) := by
    refine List.filter_congr fun i _ => ?_
    rw [runif_bucket]; simp
  rw [e]
  rfl

/-- **C94** The counts of the 32 buckets after the million samples. -/
theorem C94_histogram : histogram 0 1 32 1000000 runifSample = [31152, 31319, 31517, 31527, 31123, 31075, 31161, 31353, 31046, 31036, 31280, 31412, 31207, 31596, 31094, 31281,
    31209, 31178, 31116, 31228, 31267, 31193, 31284, 31539, 31114, 31261, 31392, 31155, 31290, 31296, 31080, 31219] := runif_histogram _ rfl

/-- **C94** The test passes: what it reports is 31/31250. -/
theorem C94_passes : histogramPasses 0 1 (fun _ => .num 1) runifSample = true ∧
    ∀ N, N = 1000000 → histogramError 0 1 32 N (fun _ => .num 1) (histogram 0 1 32 N runifSample) = .num (31 / 31250) := by
  have key : ∀ N, N = 1000000 → histogramError 0 1 32 N (fun _ => .num 1) (histogram 0 1 32 N runifSample) = .num (31 / 31250) := by
    intro N hN
    rw [C62_reports_last _ _ _ _ _ _ (by norm_num), runif_histogram N hN]
    simp only [bucketError, densityEst, runifCounts]
    rw [hN]
    norm_num [Fl.sub, Fl.abs]
  refine ⟨?_, key⟩
  unfold histogramPasses
  rw [key _ rfl]
  norm_num [Fl.lt]

/-- **C94** is false for the largest error: 26 of the 32 buckets are off by more than the limit, bucket 13 by more than ten times as much; the test passes because
it looks at the last bucket only. -/
theorem C94_not_the_maximum (N : ℕ) (hN : N = 1000000) :
    (∀ k < 32, (bucketError 0 1 32 N (fun _ => .num 1) (histogram 0 1 32 N runifSample) k).lt (.num (1 / 1000)) = true ↔ k ∈ [10, 15, 19, 20, 25, 31]) ∧
    (∀ k < 32, (bucketError 0 1 32 N (fun _ => .num 1) (histogram 0 1 32 N runifSample) k).le (.num (173 / 15625)) = true) ∧
    bucketError 0 1 32 N (fun _ => .num 1) (histogram 0 1 32 N runifSample) 13 = .num (173 / 15625) := by
  rw [runif_histogram N hN]
  subst hN
  decide +kernel

/-- The test specification is the one of the library, and its limits are those of the histogram above. -/
example : (⟨"runif", "test_runif", litInt "1", TestSpec.app "runif" [.path ["i"], TestSpec.rfl "0.0", TestSpec.rfl "1.0"],
    .histogram (TestSpec.fl "0.0") (TestSpec.fl "1.0")⟩ : TestSpec) ∈ testSpecs := by
  simp [testSpecs]

example : ∃ y : ℚ, runifSample 5 = .num y ∧ Gen.runif.apply (ieeeInterp .f64 fun _ _ => .junk) (demoBits .f64) [.i (5 : ℕ), .f 0, .f 1] = .f y :=
  C94_sample (demo_bits _) 5 (by norm_num)

end Verif

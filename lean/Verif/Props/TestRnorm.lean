import Verif.Props.TestRunif
import Verif.Lemmas.NormalNumbers

/-! # C95: the histogram test of `rnorm`, run on the generated `rnorm` -/

namespace Verif
open Gen RExpr RunifCount Bd

section
variable {calls : String → List RV → RV} {g : Name → RV}

/-- The generated `runif` is the one that is called. -/
def CallsRunif (calls : String → List RV → RV) (g : Name → RV) : Prop :=
  ∀ (index : ℤ) (lo hi : RV), 0 ≤ index → index < 2 ^ 64 → calls "runif" [.i index, lo, hi] = Gen.runif.apply (ieeeInterp .f64 calls) g [.i index, lo, hi]

/-- The function called `qnorm` returns floats that are within 1e-4 of the quantile between 0.001 and 0.999, and beyond ±2 outside. -/
def QuantileNear (calls : String → List RV → RV) : Prop :=
  ∀ a : ℝ, 9 / 10 ^ 7 ≤ a → a ≤ 1 - 9 / 10 ^ 7 → ∃ y : ℚ, calls "qnorm" [.f a, .f 0, .f 1] = .f y ∧
    (1 / 1000 ≤ a → a ≤ 999 / 1000 → |(y : ℝ) - Function.invFun normalCdf a| ≤ 1 / 10 ^ 4) ∧ (a < 1 / 1000 → y < -2) ∧ (999 / 1000 < a → 2 ≤ y)

theorem rnd_unit {x : ℝ} (h : |x| ≤ 2) : |FloatFmt.f64.rnd x - x| ≤ 1 / 10 ^ 14 := by
  have h1 := FloatFmt.rnd_err (F := .f64) x
  have h2 : FloatFmt.f64.tiny ≤ 1 := (FloatFmt.tiny_le (FloatFmt.wide_fmtOf false)).trans (by norm_num)
  have h3 := FloatFmt.eps_pos (F := .f64)
  have h4 : FloatFmt.f64.eps = 1 / 2 ^ 53 := eps_f64
  calc _ ≤ _ := h1
    _ ≤ FloatFmt.f64.eps * 3 := mul_le_mul_of_nonneg_left (by linarith) h3.le
    _ ≤ 1 / 10 ^ 14 := by rw [h4]; norm_num

/-- **C95** In float arithmetic `rnorm(index, 0.0, 1.0)` is the quantile at a point between `1e-6` and `1 - 1e-6`, up to rounding. -/
theorem C95_rnorm_value (hg : BitConsts .f64 g) (hr : CallsRunif calls g) (index : ℤ) (h0 : 0 ≤ index) (h64 : index < 2 ^ 64) (mean sd : RV) :
    ∃ a : ℝ, Gen.rnorm.apply (ieeeInterp .f64 calls) g [.i index, mean, sd] = calls "qnorm" [.f a, mean, sd] ∧
      |a - (1 / 10 ^ 6 + (splitmixBits index : ℝ) / 2 ^ 52 * (1 - 2 / 10 ^ 6))| ≤ 1 / 10 ^ 9 := by
  have hok : FloatFmt.f64.Ok := (FloatFmt.wide_fmtOf false).ok
  have num1 : ∀ env, (num "1.0").denote (ieeeInterp .f64 calls) env = .f 1 := fun env => numIE_1 (FloatFmt.wide_fmtOf false)
  have numm : ∀ env, (num "0.000001").denote (ieeeInterp .f64 calls) env = FloatFmt.f64.rne (1 / 10 ^ 6) := fun env => by
    rw [denoteIE_num _ _ _ (s := "0.000001") (d := ⟨1, 6⟩) rfl]; congr 1; norm_num [Dec.val]
  have big : (2 : ℝ) ≤ 2 ^ FloatFmt.f64.bias := by
    calc (2 : ℝ) = 2 ^ 1 := by norm_num
      _ ≤ _ := pow_le_pow_right₀ (by norm_num) (by decide)
  have big' : (2 : ℝ) ≤ 2 ^ 1022 := by
    calc (2 : ℝ) = 2 ^ 1 := by norm_num
      _ ≤ _ := pow_le_pow_right₀ (by norm_num) (by norm_num)
  have rne2 : ∀ {x : ℝ}, |x| ≤ 2 → FloatFmt.f64.rne x = .f (FloatFmt.f64.rnd x) := fun h => FloatFmt.rne_f hok (h.trans big)
  have e1 := abs_le.1 (rnd_unit (x := 1 / 10 ^ 6) (by rw [abs_of_pos (by positivity)]; norm_num))
  have hrm : FloatFmt.f64.Repr (FloatFmt.f64.rnd (1 / 10 ^ 6)) := FloatFmt.rnd_repr _
  have hm1 : FloatFmt.f64.rne (1 / 10 ^ 6) = .f (FloatFmt.f64.rnd (1 / 10 ^ 6)) := rne2 (by rw [abs_of_pos (by positivity)]; norm_num)
  generalize FloatFmt.f64.rnd (1 / 10 ^ 6) = m at e1 hrm hm1
  have hm0 : |1 - m| ≤ 2 := by rw [abs_le]; norm_num at e1 ⊢; constructor <;> linarith
  have e2 := abs_le.1 (rnd_unit hm0)
  have hrM : FloatFmt.f64.Repr (FloatFmt.f64.rnd (1 - m)) := FloatFmt.rnd_repr _
  have hM1 : FloatFmt.f64.rne (1 - m) = .f (FloatFmt.f64.rnd (1 - m)) := rne2 hm0
  generalize FloatFmt.f64.rnd (1 - m) = M at e2 hrM hM1
  norm_num at e1 e2
  have hD : |M - m| ≤ 2 := by rw [abs_le]; constructor <;> linarith
  have hv : Gen.rnorm.apply (ieeeInterp .f64 calls) g [.i index, mean, sd] = calls "qnorm" [calls "runif" [.i index, .f m, .f M], mean, sd] := by
    simp only [Gen.rnorm, RFn.apply, bindParams, RStmt.denoteBlock, denoteBlock_const, denoteBlock_letT, denote_v, denote_sub, denote_app, denoteArgs_nil,
      denoteArgs_cons, envSet_one, num1, numm, hm1, ieee_bin, ieee_call, String.reduceEq, if_true, if_false, binIE_sub, hM1]
  rw [hv, hr _ _ _ h0 h64, runif_finite hg index h0 h64 hrm hrM (by linarith) ((by rw [abs_le]; constructor <;> linarith : |m| ≤ 2).trans big')
    ((by rw [abs_le]; constructor <;> linarith : |M| ≤ 2).trans big')]
  refine ⟨_, rfl, ?_⟩
  have hu1 : (splitmixBits index : ℝ) / 2 ^ 52 ≤ 1 := (fraction_le index).trans (by norm_num)
  have hu0 : 0 ≤ (splitmixBits index : ℝ) / 2 ^ 52 := by positivity
  generalize (splitmixBits index : ℝ) / 2 ^ 52 = u at hu0 hu1
  have e3 := abs_le.1 (rnd_unit hD)
  generalize FloatFmt.f64.rnd (M - m) = d at e3
  norm_num at e3
  have hd0 : 0 ≤ d := by linarith
  have hud : u * d ≤ d := by nlinarith
  have hud0 : 0 ≤ u * d := by positivity
  have e4 := abs_le.1 (rnd_unit (x := u * d) (by rw [abs_le]; constructor <;> linarith))
  generalize FloatFmt.f64.rnd (u * d) = p at e4
  norm_num at e4
  have e5 := abs_le.1 (rnd_unit (x := p + m) (by rw [abs_le]; constructor <;> linarith))
  generalize FloatFmt.f64.rnd (p + m) = a at e5
  norm_num at e5
  have k1 : u * d - u * (1 - 2 / 10 ^ 6) ≤ 1 / 10 ^ 12 := by
    rw [← mul_sub]
    have : d - (1 - 2 / 10 ^ 6) ≤ 1 / 10 ^ 12 := by norm_num; linarith
    nlinarith
  have k2 : -(1 / 10 ^ 12) ≤ u * d - u * (1 - 2 / 10 ^ 6) := by
    rw [← mul_sub]
    have : -(1 / 10 ^ 12) ≤ d - (1 - 2 / 10 ^ 6) := by norm_num; linarith
    nlinarith
  generalize u * d = ud at *
  generalize u * (1 - 2 / 10 ^ 6) = uv at *
  rw [abs_le]
  norm_num at k1 k2 ⊢
  constructor <;> linarith

end

/-- The quantile of a number away from 0 and 1. -/
theorem cdf_quantile {a : ℝ} (h0 : 1 / 1000 ≤ a) (h1 : a ≤ 999 / 1000) : normalCdf (Function.invFun normalCdf a) = a := by
  have hc : Continuous normalCdf := continuous_iff_continuousAt.2 fun u => (hasDerivAt_normalCdf u).continuousAt
  have h4 := normalCdf_four
  have h4' : normalCdf (-4) ≤ 0.00005 := by rw [normalCdf_neg]; linarith
  obtain ⟨t, -, hx⟩ := intermediate_value_Icc (show (-4 : ℝ) ≤ 4 by norm_num) hc.continuousOn ⟨h4'.trans (by linarith), (show a ≤ normalCdf 4 by linarith)⟩
  exact Function.invFun_eq ⟨t, hx⟩

/-- Where the sample falls, by the class of its random bits. -/
theorem class_bucket {a : ℝ} {y : ℚ} {z : ℕ} (ha : |a - ((1 : ℝ) / 10 ^ 6 + ((z >>> 2 % 2 ^ 52 : ℕ) : ℝ) / 2 ^ 52 * (1 - 2 / 10 ^ 6))| ≤ 1 / 10 ^ 9)
    (hy : 1 / 1000 ≤ a → a ≤ 999 / 1000 → |(y : ℝ) - Function.invFun normalCdf a| ≤ 1 / 10 ^ 4) (hl : a < 1 / 1000 → y < -2) (hh : 999 / 1000 < a → 2 ≤ y) :
    (classOf z = 4 → bucketIndex (-2) 2 32 (.num y) = 31) ∧ (bucketIndex (-2) 2 32 (.num y) = 31 → classOf z = 3 ∨ classOf z = 4 ∨ classOf z = 5) ∧
      (bucketIndex (-2) 2 32 (.num y) = 11 → classOf z = 1) := by
  have hb31 : bucketIndex (-2) 2 32 (.num y) = 31 ↔ 15 / 8 ≤ y ∧ y < 2 := by
    rw [C62_bucket (-2) 2 32 (by norm_num) (by norm_num)]; norm_num
  have hb11 : bucketIndex (-2) 2 32 (.num y) = 11 ↔ -5 / 8 ≤ y ∧ y < -1 / 2 := by
    rw [C62_bucket (-2) 2 32 (by norm_num) (by norm_num)]; norm_num
  rw [hb31, hb11]
  have hyl : ∀ c : ℚ, (c ≤ y ↔ (c : ℝ) ≤ y) := fun c => Rat.cast_le.symm
  have hyr : ∀ c : ℚ, (y < c ↔ (y : ℝ) < c) := fun c => Rat.cast_lt.symm
  rw [hyl, hyr, hyl, hyr]
  have hl' : a < 1 / 1000 → (y : ℝ) < -2 := fun h => by have := (hyr (-2)).1 (hl h); push_cast at this; exact this
  have hh' : 999 / 1000 < a → (2 : ℝ) ≤ y := fun h => by have := (hyl 2).1 (hh h); push_cast at this; exact this
  push_cast
  generalize (y : ℝ) = y at *
  -- the quantile from the position of `a`
  have up : ∀ {c r : ℝ}, normalCdf c ≤ r → r ≤ a → 1 / 1000 ≤ a → a ≤ 999 / 1000 → c - 1 / 10 ^ 4 ≤ y := by
    intro c r h1 h2 h3 h4
    have hq := cdf_quantile h3 h4
    have h5 : c ≤ Function.invFun normalCdf a := by
      by_contra hc
      have := normalCdf_strictMono (not_le.1 hc)
      linarith
    have := (abs_le.1 (hy h3 h4)).1
    linarith
  have dn : ∀ {c r : ℝ}, r ≤ normalCdf c → a < r → 1 / 1000 ≤ a → a ≤ 999 / 1000 → y < c + 1 / 10 ^ 4 := by
    intro c r h1 h2 h3 h4
    have hq := cdf_quantile h3 h4
    have h5 : Function.invFun normalCdf a < c := by
      by_contra hc
      have := normalCdf_strictMono.monotone (not_lt.1 hc)
      linarith
    have := (abs_le.1 (hy h3 h4)).2
    linarith
  unfold classOf
  simp only []
  have hn : z >>> 2 % 2 ^ 52 < 2 ^ 52 := Nat.mod_lt _ (by norm_num)
  generalize z >>> 2 % 2 ^ 52 = n at ha hn
  have ha' := abs_le.1 ha
  norm_num at ha'
  refine ⟨?_, ?_, ?_⟩
  · intro hc
    have h1 : 4366744418543506 ≤ n ∧ n < 4401119562529587 := by split_ifs at hc <;> omega
    have k1 : (4366744418543506 : ℝ) ≤ n := by exact_mod_cast h1.1
    have k2 : (n : ℝ) ≤ 4401119562529587 := by exact_mod_cast h1.2.le
    have b1 := up cdf_18751 (by norm_num; linarith) (by linarith) (by linarith)
    have b2 := dn cdf_19999 (by norm_num; linarith) (by linarith) (by linarith)
    norm_num at b1 b2
    constructor <;> linarith
  · intro hc
    have h1 : 4366675963692260 ≤ n := by
      by_contra h
      have k2 : (n : ℝ) ≤ 4366675963692260 := by exact_mod_cast (not_le.1 h).le
      rcases lt_or_ge a (1 / 1000) with h3 | h3
      · have := hl' h3; linarith [hc.1]
      · have b2 := dn cdf_18749 (by norm_num; linarith) h3 (by linarith)
        norm_num at b2
        linarith [hc.1]
    have h2 : n < 4401174506554929 := by
      by_contra h
      have k1 : (4401174506554929 : ℝ) ≤ n := by exact_mod_cast not_lt.1 h
      rcases lt_or_ge (999 / 1000) a with h3 | h3
      · have := hh' h3; linarith [hc.2]
      · have b1 := up cdf_20001 (by norm_num; linarith) (by linarith) h3
        norm_num at b1
        linarith [hc.2]
    split_ifs <;> omega
  · intro hc
    have c1 : normalCdf (-0.4999) ≤ 0.308573 := by rw [normalCdf_neg]; linarith [cdf_04999]
    have c2 : 0.265952 ≤ normalCdf (-0.6251) := by rw [normalCdf_neg]; linarith [cdf_06251]
    have h1 : 1197738769616387 ≤ n := by
      by_contra h
      have k2 : (n : ℝ) ≤ 1197738769616387 := by exact_mod_cast (not_le.1 h).le
      rcases lt_or_ge a (1 / 1000) with h3 | h3
      · have := hl' h3; linarith [hc.1]
      · have b2 := dn c2 (by norm_num; linarith) h3 (by linarith)
        norm_num at b2
        linarith [hc.1]
    have h2 : n < 1389687973952879 := by
      by_contra h
      have k1 : (1389687973952879 : ℝ) ≤ n := by exact_mod_cast not_lt.1 h
      rcases lt_or_ge (999 / 1000) a with h3 | h3
      · have := hh' h3; linarith [hc.2]
      · have b1 := up c1 (by norm_num; linarith) (by linarith) h3
        norm_num at b1
        linarith [hc.2]
    split_ifs <;> omega

/-- The count of a bucket. -/
theorem histogram_card (min max : ℚ) (N : ℕ) (sample : ℕ → Fl) (k : ℕ) (hk : k < 32) :
    (histogram min max 32 N sample).getD k 0 = ((Finset.range N).filter fun i => bucketIndex min max 32 (sample i) = k).card := by
  rw [C62_counts min max 32 N sample k hk, List.countP_eq_length_filter]
  rfl

section
variable {calls : String → List RV → RV} {g : Name → RV} {sample : ℕ → Fl} {pdf : ℚ → Fl}

/-- The samples of the test are what the generated `rnorm` returns. -/
def RnormSamples (calls : String → List RV → RV) (g : Name → RV) (sample : ℕ → Fl) : Prop :=
  ∀ i < 1000000, ∃ y : ℚ, sample i = .num y ∧ Gen.rnorm.apply (ieeeInterp .f64 calls) g [.i i, .f 0, .f 1] = .f y

theorem rnorm_class (hg : BitConsts .f64 g) (hr : CallsRunif calls g) (hq : QuantileNear calls) (hs : RnormSamples calls g sample) (i : ℕ) (hi : i < 1000000) :
    (classOf (splitmixNat i) = 4 → bucketIndex (-2) 2 32 (sample i) = 31) ∧
    (bucketIndex (-2) 2 32 (sample i) = 31 → classOf (splitmixNat i) = 3 ∨ classOf (splitmixNat i) = 4 ∨ classOf (splitmixNat i) = 5) ∧
    (bucketIndex (-2) 2 32 (sample i) = 11 → classOf (splitmixNat i) = 1) := by
  obtain ⟨y, hy, hv⟩ := hs i hi
  obtain ⟨a, ha, hn⟩ := C95_rnorm_value hg hr i (by positivity) (by exact_mod_cast (by omega : i < 2 ^ 64)) (.f 0) (.f 1)
  have hu0 : 0 ≤ (splitmixBits i : ℝ) / 2 ^ 52 := by positivity
  have hu1 : (splitmixBits i : ℝ) / 2 ^ 52 ≤ 1 := (fraction_le i).trans (by norm_num)
  have hn' := abs_le.1 hn
  obtain ⟨y', hy', h1, h2, h3⟩ := hq a (by norm_num at hn' ⊢; linarith) (by norm_num at hn' ⊢; linarith)
  rw [hv, hy'] at ha
  have e : y = y' := by
    have := RV.f.inj ha
    exact_mod_cast this
  subst e
  rw [hy]
  rw [bits_nat] at hn
  exact class_bucket hn h1 h2 h3

theorem rnorm_counts (hg : BitConsts .f64 g) (hr : CallsRunif calls g) (hq : QuantileNear calls) (hs : RnormSamples calls g sample) (N : ℕ) (hN : N = 1000000) :
    7668 ≤ (histogram (-2) 2 32 N sample).getD 31 0 ∧ (histogram (-2) 2 32 N sample).getD 31 0 ≤ 7692 ∧ (histogram (-2) 2 32 N sample).getD 11 0 ≤ 42203 := by
  have key := fun i (hi : i ∈ Finset.range N) => rnorm_class hg hr hq hs i (by rw [← hN]; exact Finset.mem_range.1 hi)
  have c1 := class_million 1 (by norm_num)
  have c3 := class_million 3 (by norm_num)
  have c4 := class_million 4 (by norm_num)
  have c5 := class_million 5 (by norm_num)
  rw [← hN] at c1 c3 c4 c5
  have v1 : classCounts.getD 1 0 = 42203 := rfl
  have v3 : classCounts.getD 3 0 = 12 := rfl
  have v4 : classCounts.getD 4 0 = 7668 := rfl
  have v5 : classCounts.getD 5 0 = 12 := rfl
  rw [v1] at c1; rw [v3] at c3; rw [v4] at c4; rw [v5] at c5
  rw [histogram_card _ _ _ _ _ (by norm_num), histogram_card _ _ _ _ _ (by norm_num)]
  refine ⟨?_, ?_, ?_⟩
  · rw [← c4]
    refine Finset.card_le_card fun i hi => ?_
    rw [Finset.mem_filter] at hi ⊢
    exact ⟨hi.1, (key i hi.1).1 hi.2⟩
  · have hsub : ((Finset.range N).filter fun i => bucketIndex (-2) 2 32 (sample i) = ((31 : ℕ) : ℤ)) ⊆
        ((Finset.range N).filter fun i => classOf (splitmixNat i) = 3) ∪ (((Finset.range N).filter fun i => classOf (splitmixNat i) = 4) ∪
          ((Finset.range N).filter fun i => classOf (splitmixNat i) = 5)) := by
      intro i hi
      rw [Finset.mem_filter] at hi
      rw [Finset.mem_union, Finset.mem_union, Finset.mem_filter, Finset.mem_filter, Finset.mem_filter]
      rcases (key i hi.1).2.1 hi.2 with h | h | h
      · exact .inl ⟨hi.1, h⟩
      · exact .inr (.inl ⟨hi.1, h⟩)
      · exact .inr (.inr ⟨hi.1, h⟩)
    have h1 := Finset.card_le_card hsub
    have h2 := Finset.card_union_le ((Finset.range N).filter fun i => classOf (splitmixNat i) = 3)
      (((Finset.range N).filter fun i => classOf (splitmixNat i) = 4) ∪ ((Finset.range N).filter fun i => classOf (splitmixNat i) = 5))
    have h3 := Finset.card_union_le ((Finset.range N).filter fun i => classOf (splitmixNat i) = 4) ((Finset.range N).filter fun i => classOf (splitmixNat i) = 5)
    omega
  · rw [← c1]
    refine Finset.card_le_card fun i hi => ?_
    rw [Finset.mem_filter] at hi ⊢
    exact ⟨hi.1, (key i hi.1).2.2 hi.2⟩

/-- **C95** The histogram test of `rnorm` passes when the `qnorm` it calls is right to 1e-4 and the density to 1e-5. -/
theorem C95_rnorm_passes (hg : BitConsts .f64 g) (hr : CallsRunif calls g) (hq : QuantileNear calls) (hs : RnormSamples calls g sample)
    (hp : ∃ d : ℚ, pdf (31 / 16) = .num d ∧ |(d : ℝ) - normalPdf (31 / 16)| ≤ 1 / 10 ^ 5) : histogramPasses (-2) 2 pdf sample = true := by
  have key : ∀ N, N = 1000000 → (histogramError (-2) 2 32 N pdf (histogram (-2) 2 32 N sample)).lt (.num (1 / 1000)) = true := by
    intro N hN
    obtain ⟨h1, h2, -⟩ := rnorm_counts hg hr hq hs N hN
    obtain ⟨d, hd, hd'⟩ := hp
    rw [C62_reports_last _ _ _ _ _ _ (by norm_num)]
    have hm : bucketMid (-2) 2 32 (32 - 1) = 31 / 16 := by norm_num [bucketMid]
    unfold bucketError
    rw [hm, hd]
    simp only [densityEst, show 32 - 1 = 31 from rfl]
    generalize (histogram (-2) 2 32 N sample).getD 31 0 = c at h1 h2
    rw [hN]
    have hd0 := abs_le.1 hd'
    have hpd := pdf_19375
    have r1 : ((6059 / 100000 : ℚ) : ℝ) ≤ d := by push_cast; norm_num at hd0 hpd; linarith
    have r2 : (d : ℝ) ≤ ((6151 / 100000 : ℚ) : ℝ) := by push_cast; norm_num at hd0 hpd; linarith
    have r1' := Rat.cast_le.1 r1
    have r2' := Rat.cast_le.1 r2
    have k1 : (7668 : ℚ) ≤ c := by exact_mod_cast h1
    have k2 : (c : ℚ) ≤ 7692 := by exact_mod_cast h2
    show decide (_ < _) = true
    rw [decide_eq_true_iff, abs_lt]
    norm_num
    constructor <;> linarith
  unfold histogramPasses
  exact key _ rfl

/-- **C95** is false for the largest error: bucket 11 is off by more than twice the limit, whatever the errors of `qnorm` and the density. -/
theorem C95_not_the_maximum (hg : BitConsts .f64 g) (hr : CallsRunif calls g) (hq : QuantileNear calls) (hs : RnormSamples calls g sample)
    (hp : ∃ d : ℚ, pdf (-9 / 16) = .num d ∧ |(d : ℝ) - normalPdf (-9 / 16)| ≤ 1 / 10 ^ 5) (N : ℕ) (hN : N = 1000000) :
    (Fl.num (1 / 500)).lt (bucketError (-2) 2 32 N pdf (histogram (-2) 2 32 N sample) 11) = true := by
  obtain ⟨-, -, h3⟩ := rnorm_counts hg hr hq hs N hN
  obtain ⟨d, hd, hd'⟩ := hp
  have hm : bucketMid (-2) 2 32 11 = -9 / 16 := by norm_num [bucketMid]
  unfold bucketError
  rw [hm, hd]
  simp only [densityEst]
  generalize (histogram (-2) 2 32 N sample).getD 11 0 = c at h3
  rw [hN]
  have hd0 := abs_le.1 hd'
  have hpd := pdf_05625
  have r1 : ((34029 / 100000 : ℚ) : ℝ) ≤ d := by push_cast; norm_num at hd0 hpd; linarith
  have r1' := Rat.cast_le.1 r1
  have k1 : (c : ℚ) ≤ 42203 := by exact_mod_cast h3
  show decide (_ < _) = true
  rw [decide_eq_true_iff, lt_abs]
  right
  norm_num
  linarith

end

/-- A rational number within 1e-4 of a real number. -/
noncomputable def nearQ (x : ℝ) : ℚ := ⌊x * 10 ^ 4⌋ / 10 ^ 4

/-- Functions to call: the generated `runif`, and a `qnorm` that is right to 1e-4. -/
noncomputable def rnormCalls (f : String) (args : List RV) : RV :=
  if f = "runif" then Gen.runif.apply (ieeeInterp .f64 fun _ _ => .junk) (demoBits .f64) args
  else match args with
    | [.f a, _, _] => .f (if a < 1 / 1000 then ((-3 : ℚ) : ℝ) else if 999 / 1000 < a then ((3 : ℚ) : ℝ) else nearQ (Function.invFun normalCdf a))
    | _ => .junk

theorem demo_runif : CallsRunif rnormCalls (demoBits .f64) := by
  intro index lo hi h0 h1
  show Gen.runif.apply (ieeeInterp .f64 fun _ _ => .junk) (demoBits .f64) _ = _
  rw [C93_runif_value (demo_bits _) index lo hi h0 h1, C93_runif_value (demo_bits _) index lo hi h0 h1]

theorem demo_quantile : QuantileNear rnormCalls := by
  intro a _ _
  by_cases h1 : a < 1 / 1000
  · refine ⟨-3, ?_, fun h => absurd h1 (not_lt.2 h), fun _ => by norm_num, fun h => absurd h1 (by linarith)⟩
    simp only [rnormCalls, if_pos h1, String.reduceEq, if_false]
  by_cases h2 : 999 / 1000 < a
  · refine ⟨3, ?_, fun _ h => absurd h2 (not_lt.2 h), fun h => absurd h h1, fun _ => by norm_num⟩
    simp only [rnormCalls, if_neg h1, if_pos h2, String.reduceEq, if_false]
  · refine ⟨nearQ (Function.invFun normalCdf a), ?_, fun _ _ => ?_, fun h => absurd h h1, fun h => absurd h h2⟩
    · simp only [rnormCalls, if_neg h1, if_neg h2, String.reduceEq, if_false]
    · generalize Function.invFun normalCdf a = x
      have f1 := Int.floor_le (x * 10 ^ 4)
      have f2 := Int.lt_floor_add_one (x * 10 ^ 4)
      unfold nearQ
      push_cast
      generalize ((⌊x * 10 ^ 4⌋ : ℤ) : ℝ) = m at *
      rw [abs_le]
      norm_num at f1 f2 ⊢
      constructor <;> linarith

/-- The hypotheses can be met, and then the test passes with a bucket off by twice the limit. -/
example : ∃ sample pdf, RnormSamples rnormCalls (demoBits .f64) sample ∧ histogramPasses (-2) 2 pdf sample = true ∧
    ∀ N, N = 1000000 → (Fl.num (1 / 500)).lt (bucketError (-2) 2 32 N pdf (histogram (-2) 2 32 N sample) 11) = true := by
  have hs : ∀ i : ℕ, i < 1000000 → ∃ y : ℚ, Gen.rnorm.apply (ieeeInterp .f64 rnormCalls) (demoBits .f64) [.i i, .f 0, .f 1] = .f y := by
    intro i hi
    obtain ⟨a, ha, hn⟩ := C95_rnorm_value (demo_bits _) demo_runif i (by positivity) (by exact_mod_cast (by omega : i < 2 ^ 64)) (.f 0) (.f 1)
    have hu0 : 0 ≤ (splitmixBits i : ℝ) / 2 ^ 52 := by positivity
    have hu1 : (splitmixBits i : ℝ) / 2 ^ 52 ≤ 1 := (fraction_le i).trans (by norm_num)
    have hn' := abs_le.1 hn
    obtain ⟨y', hy', -⟩ := demo_quantile a (by norm_num at hn' ⊢; linarith) (by norm_num at hn' ⊢; linarith)
    exact ⟨y', ha.trans hy'⟩
  choose! y hy using hs
  have hd : ∀ x : ℚ, ∃ d : ℚ, |(d : ℝ) - normalPdf x| ≤ 1 / 10 ^ 5 := by
    intro x
    obtain ⟨d, h1, h2⟩ := exists_rat_btwn (show normalPdf x < normalPdf x + 1 / 10 ^ 5 by norm_num)
    exact ⟨d, by rw [abs_le]; constructor <;> linarith⟩
  choose d hd using hd
  have hS : RnormSamples rnormCalls (demoBits .f64) fun i => .num (y i) := fun i hi => ⟨_, rfl, hy i hi⟩
  refine ⟨fun i => .num (y i), fun x => .num (d x), hS, C95_rnorm_passes (demo_bits _) demo_runif demo_quantile hS ⟨_, rfl, ?_⟩,
    C95_not_the_maximum (demo_bits _) demo_runif demo_quantile hS ⟨_, rfl, ?_⟩⟩
  · have := hd (31 / 16); push_cast at this; exact this
  · have := hd (-9 / 16); push_cast at this; exact this

end Verif

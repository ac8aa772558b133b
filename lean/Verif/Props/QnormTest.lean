import Verif.Props.QnormIeee
import Verif.Props.TestIeee
import Verif.Props.TestRnorm

/-! # C96, C97: the tests of `qnorm` and `rnorm`, run on the generated 64-bit `qnorm` -/

namespace Verif
open Gen RExpr Bd Dec RunifCount

/-! ## Bounds of the polynomial on intervals -/

/-- The coefficient of `h ^ k` in the polynomial at `m + h`. -/
def qnormShift (m : ℚ) (k : ℕ) : ℚ := ∑ j ∈ Finset.range 16, qnormC j * (Nat.choose (2 * j + 1) k * m ^ (2 * j + 1 - k))

theorem qnormPoly_shift (m : ℚ) (h : ℝ) : qnormPoly (m + h) = ∑ k ∈ Finset.range 32, (qnormShift m k : ℝ) * h ^ k := by
  unfold qnormPoly qnormShift
  push_cast
  simp only [Finset.sum_mul]
  rw [Finset.sum_comm]
  refine Finset.sum_congr rfl fun j hj => ?_
  have hj' := Finset.mem_range.1 hj
  rw [add_comm (m : ℝ), add_pow, Finset.mul_sum]
  rw [← Finset.sum_subset (s₁ := Finset.range (2 * j + 1 + 1)) (s₂ := Finset.range 32) (fun k hk => by rw [Finset.mem_range] at hk ⊢; omega) fun k _ hk => by
    rw [Finset.mem_range] at hk
    rw [Nat.choose_eq_zero_of_lt (by omega)]; simp]
  exact Finset.sum_congr rfl fun k _ => by ring

/-- The coefficient of `h ^ k` in `α Q(m + h) + γ (1/4 - (m + h)²)`. -/
def poleShift (α γ m : ℚ) (k : ℕ) : ℚ := α * qnormShift m k + γ * if k = 0 then 1 / 4 - m ^ 2 else if k = 1 then -2 * m else if k = 2 then -1 else 0

theorem pole_shift (α γ m : ℚ) (h : ℝ) : α * qnormPoly (m + h) + γ * (1 / 4 - (m + h) ^ 2) = ∑ k ∈ Finset.range 32, (poleShift α γ m k : ℝ) * h ^ k := by
  rw [qnormPoly_shift]
  unfold poleShift
  push_cast
  simp only [add_mul, Finset.sum_add_distrib, Finset.mul_sum, ← mul_assoc]
  congr 1
  rw [← Finset.sum_subset (s₁ := Finset.range 3) (s₂ := Finset.range 32) (fun k hk => by rw [Finset.mem_range] at hk ⊢; omega) fun k _ hk => by
    rw [Finset.mem_range] at hk
    rw [if_neg (by omega), if_neg (by omega), if_neg (by omega)]; simp]
  simp [Finset.sum_range_succ]
  ring

/-- A lower bound on `[m - H, m + H]`. -/
def poleLow (α γ m H : ℚ) : ℚ := poleShift α γ m 0 - ∑ k ∈ Finset.range 31, |poleShift α γ m (k + 1)| * H ^ (k + 1)

theorem poleLow_le (α γ m H : ℚ) {x : ℝ} (hx : |x - m| ≤ H) : (poleLow α γ m H : ℝ) ≤ α * qnormPoly x + γ * (1 / 4 - x ^ 2) := by
  obtain ⟨h, rfl⟩ : ∃ h, x = m + h := ⟨x - m, by ring⟩
  rw [add_sub_cancel_left] at hx
  rw [pole_shift, Finset.sum_range_succ', pow_zero, mul_one]
  unfold poleLow
  push_cast
  have : -∑ k ∈ Finset.range 31, |(poleShift α γ m (k + 1) : ℝ)| * (H : ℝ) ^ (k + 1) ≤ ∑ k ∈ Finset.range 31, (poleShift α γ m (k + 1) : ℝ) * h ^ (k + 1) := by
    rw [← Finset.sum_neg_distrib]
    refine Finset.sum_le_sum fun k _ => ?_
    refine neg_le_of_abs_le ?_
    rw [abs_mul, abs_pow]
    exact mul_le_mul_of_nonneg_left (pow_le_pow_left₀ (abs_nonneg _) hx _) (abs_nonneg _)
  linarith

/-- Whether `δ ≤ α Q(x) + γ (1/4 - x²)` on `[l, r]`, by halving the interval up to `n` times. -/
def poleCheck (α γ δ : ℚ) : ℕ → ℚ → ℚ → Bool
  | 0, _, _ => false
  | n + 1, l, r => decide (δ ≤ poleLow α γ ((l + r) / 2) ((r - l) / 2)) || (poleCheck α γ δ n l ((l + r) / 2) && poleCheck α γ δ n ((l + r) / 2) r)

theorem poleCheck_le (α γ δ : ℚ) (n : ℕ) : ∀ l r : ℚ, poleCheck α γ δ n l r = true → ∀ x : ℝ, (l : ℝ) ≤ x → x ≤ r → (δ : ℝ) ≤ α * qnormPoly x + γ * (1 / 4 - x ^ 2) := by
  induction n with
  | zero => intro l r h; simp [poleCheck] at h
  | succ n ih =>
    intro l r h x h1 h2
    rw [poleCheck, Bool.or_eq_true, Bool.and_eq_true, decide_eq_true_iff] at h
    rcases h with h | ⟨h3, h4⟩
    · refine le_trans (Rat.cast_le.2 h) (poleLow_le _ _ _ _ ?_)
      push_cast
      rw [abs_le]; constructor <;> linarith
    · rcases le_total x (((l + r) / 2 : ℚ) : ℝ) with h5 | h5
      · exact ih _ _ h3 x h1 h5
      · exact ih _ _ h4 x h5 h2

theorem qnorm_at_second : poleCheck 1 (-26396 / 10000) (1 / 10 ^ 7) 12 (-49571 / 100000) (-49566 / 100000) = true := by decide +kernel
theorem qnorm_above : poleCheck (-1) (-15 / 8) (1 / 10 ^ 7) 16 (469509 / 1000000) (4772562 / 10000000) = true := by decide +kernel
theorem qnorm_below : poleCheck 1 2 (1 / 10 ^ 7) 18 (469509 / 1000000) (4772562 / 10000000) = true := by decide +kernel

/-- From the bound of the polynomial to the bound of the quotient. -/
theorem quotient_le {Q q y c : ℝ} (hq : 0 < q) (hy : |y - Q / -q| ≤ 5 / 10 ^ 8 / q) (h : 1 / 10 ^ 7 ≤ Q + c * q) : y < c := by
  have h1 := (abs_le.1 hy).2
  have h2 : Q / -q + 5 / 10 ^ 8 / q < c := by
    rw [div_neg, ← neg_div, ← add_div, div_lt_iff₀ hq]
    norm_num at h ⊢; linarith
  linarith

theorem le_quotient {Q q y c : ℝ} (hq : 0 < q) (hy : |y - Q / -q| ≤ 5 / 10 ^ 8 / q) (h : 1 / 10 ^ 7 ≤ -Q - c * q) : c < y := by
  have h1 := (abs_le.1 hy).1
  have h2 : c < Q / -q - 5 / 10 ^ 8 / q := by
    rw [div_neg, ← neg_div, ← sub_div, lt_div_iff₀ hq]
    norm_num at h ⊢; linarith
  linarith

theorem cdf_26289 : normalCdf (-2.6289) ≤ 0.004284 := by
  have h : CdfAbove 2.6289 0.995716 20 := by decide +kernel
  have := h.le
  push_cast at this
  rw [normalCdf_neg]
  norm_num at this ⊢; linarith

theorem pdf_19375_le : normalPdf (31 / 16) ≤ 0.0611 := by
  have hs := root_two_pi
  have h := Real.exp_bound (x := -961 / 1024) (by norm_num [abs_le]) (n := 10) (by norm_num)
  norm_num [Finset.sum_range_succ, Nat.factorial, abs_le] at h
  have e : Real.exp (-(31 / 16) ^ 2 / 2) = Real.exp (-961 / 1024) ^ 2 := by
    rw [← Real.exp_nat_mul]; congr 1; norm_num
  have k2 : Real.exp (-961 / 1024) ≤ 0.39125 := by norm_num; linarith [h.2]
  have k0 := Real.exp_pos (-961 / 1024)
  unfold normalPdf
  rw [e, one_div_mul_eq_div, div_le_iff₀ (by linarith)]; nlinarith

/-- What `C96_value` says about the polynomial. -/
def QnormValue (p : RExpr) : Prop :=
  ∀ (calls : String → List RV → RV) (g : Name → RV) (a : ℝ), 1 / 5000 ≤ a → a ≤ 4999 / 5000 →
    ∃ x y, |x - (a - 1 / 2)| ≤ 1 / 10 ^ 15 ∧ (Gen.qnorm p).apply (ieeeInterp .f64 calls) g [.f a, .f 0, .f 1] = .f y ∧
      FloatFmt.f64.Repr y ∧ |y - qnormPoly x / (x ^ 2 - 1 / 4)| ≤ 5 / 10 ^ 8 / (1 / 4 - x ^ 2)

/-- The samples of the test are what `rnorm` returns. -/
def SamplesOf (calls : String → List RV → RV) (g : Name → RV) (sample : ℕ → Fl) : Prop :=
  ∀ i : ℕ, i < 1000000 → ∀ y : ℚ, Gen.rnorm.apply (ieeeInterp .f64 calls) g [.i i, .f 0, .f 1] = .f y → sample i = .num y

section
variable {ext : BdExt} {fx : FloatExt} {u w : ℝ}

/-- **C96** The accuracy test `test_qnorm_1` of the library fails on the generated 64-bit `qnorm`: at the second of its 237 samples, near 0.0043, the result is off by more
than 0.01, the limit is 1e6 units of 2^-53. -/
theorem C96_test_fails (hs : SqrtOk ext) (hf : 600 ≤ ext.fuel) (hr : RoundsNear ext) (h : IeeeOk fx false u w) (hu : u ≤ 1 / 10 ^ 15) (hw : w ≤ 1 / 10 ^ 15) :
    ∃ e rows, polynomialCode ext fx false .qnorm ⟨-4999, 4⟩ ⟨4999, 4⟩ = .ok e ∧
      testRows ext false (TestSpec.meth01 "qnorm") (TestSpec.fl "0.0001") (TestSpec.fl "0.999") 237 = .ok rows ∧
      ∀ calls g, ¬TestPassesIE .f64 (rows.map (rowIE .f64)) (limitIE false 1000000 1000000) fun v => (Gen.qnorm e.toR).apply (ieeeInterp .f64 calls) g [v, .f 0, .f 1] := by
  obtain ⟨e, h1, h2, h3⟩ := C96_value hs (by omega) h hu hw
  obtain ⟨rows, V, a, b, r1, r2, x, r3, r4⟩ := C92_verdict hs hf hr false
    (TestSpec.maxAbs "qnorm" "test_qnorm_1" (TestSpec.meth01 "qnorm") (TestSpec.app "qnorm" [.path ["x"], TestSpec.asFty "0.0", TestSpec.asFty "1.0"]) (TestSpec.fl "0.0001")
      (TestSpec.fl "0.999") 1000000 1000000 237) (by simp [testSpecs]) _ _ _ _ _ rfl
  refine ⟨e, rows, h1, r1, fun calls g hp => ?_⟩
  obtain ⟨rfl, rfl, rfl⟩ : V = Function.invFun normalCdf ∧ a = 1 / 10000 ∧ b = 999 / 1000 := by
    simpa [testMeaning, TestSpec.maxAbs] using r2
  have hF := FloatFmt.wide_fmtOf false
  have hFF : fmtOf false = FloatFmt.f64 := rfl
  rw [hFF] at r4
  have key := (r4 _ fun i _ => h2 calls g _ (.f _)).1 hp 1 (by norm_num)
  have hx := abs_le.1 (r3 1 (by norm_num))
  norm_num at hx
  have e1 := abs_le.1 (rnd_unit (x := x 1) (by rw [abs_le]; constructor <;> linarith))
  norm_num at e1
  obtain ⟨z, y, hz, hy, -, hv⟩ := h3 calls g (FloatFmt.f64.rnd (x 1)) (by linarith) (by linarith)
  have hz' := abs_le.1 hz
  norm_num at hz'
  rcases key with hn | ⟨c, hc, hcl⟩
  · rw [hy] at hn; cases hn
  rw [hy] at hc
  cases hc
  -- the value
  have hq : 0 < 1 / 4 - z ^ 2 := by nlinarith
  have k := poleCheck_le _ _ _ _ _ _ qnorm_at_second z (by push_cast; linarith) (by push_cast; linarith)
  push_cast at k
  rw [one_mul] at k
  have hy1 : y < -26396 / 10000 := quotient_le hq (by rw [neg_sub]; exact hv) (by norm_num at k ⊢; linarith)
  -- the quantile
  have hV : -2.6289 ≤ Function.invFun normalCdf (x 1) := by
    have h5 := cdf_quantile (a := x 1) (by linarith) (by linarith)
    by_contra hc
    have h6 := normalCdf_strictMono (not_le.1 hc)
    have h7 := cdf_26289
    norm_num at h7 h6
    linarith
  have hV2 : |Function.invFun normalCdf (x 1)| ≤ 4 := by
    rw [abs_le]
    refine ⟨by norm_num at hV; linarith, ?_⟩
    by_contra hc
    have h5 := cdf_quantile (a := x 1) (by linarith) (by linarith)
    have h6 := normalCdf_strictMono (not_le.1 hc)
    have h7 := normalCdf_four
    norm_num at h7
    linarith
  have hL : ((accuracyLimit false 1000000 1000000 : ℚ) : ℝ) = 1000000 * (1 / 2 ^ 53) := by
    rw [show accuracyLimit false 1000000 1000000 = 1000000 * (1 / 2 ^ 53) by norm_num [accuracyLimit]]; push_cast; ring
  have hε : FloatFmt.f64.eps = 1 / 2 ^ 53 := eps_f64
  rw [hL, hε] at hcl
  have hd : 1 / 100 ≤ |y - Function.invFun normalCdf (x 1)| := by
    rw [le_abs]; right; norm_num at hV ⊢; linarith
  norm_num at hcl
  norm_num at hd
  linarith

/-- The histogram test counts at least 7779 samples in its last bucket. -/
theorem rnorm_last_bucket {p : RExpr} (hp : QnormValue p) {calls calls' : String → List RV → RV} {g g' : Name → RV} {sample : ℕ → Fl} (hg : BitConsts .f64 g) (hr : CallsRunif calls g)
    (hq : ∀ a : ℝ, calls "qnorm" [.f a, .f 0, .f 1] = (Gen.qnorm p).apply (ieeeInterp .f64 calls') g' [.f a, .f 0, .f 1]) (hs : SamplesOf calls g sample) (N : ℕ) (hN : N = 1000000) :
    7779 ≤ (histogram (-2) 2 32 N sample).getD 31 0 := by
  have key : ∀ i < N, (classOf (splitmixNat i) = 7 ∨ classOf (splitmixNat i) = 3 ∨ classOf (splitmixNat i) = 4 ∨ classOf (splitmixNat i) = 5) →
      bucketIndex (-2) 2 32 (sample i) = 31 := by
    intro i hi hc
    rw [hN] at hi
    obtain ⟨a, ha, hn⟩ := C95_rnorm_value hg hr i (by positivity) (by exact_mod_cast (by omega : i < 2 ^ 64)) (.f 0) (.f 1)
    rw [bits_nat] at hn
    unfold classOf at hc
    simp only [] at hc
    generalize splitmixNat i >>> 2 % 2 ^ 52 = n at hc hn
    have hb : 4366289103710549 ≤ n ∧ n < 4401174506554929 := by
      rcases hc with hc | hc | hc | hc <;> split_ifs at hc <;> omega
    have k1 : (4366289103710549 : ℝ) ≤ n := by exact_mod_cast hb.1
    have k2 : (n : ℝ) ≤ 4401174506554929 := by exact_mod_cast hb.2.le
    have hn' := abs_le.1 hn
    norm_num at hn'
    obtain ⟨z, y, hz, hy, hrep, hv⟩ := hp calls' g' a (by linarith) (by linarith)
    have hz' := abs_le.1 hz
    norm_num at hz'
    have hq0 : 0 < 1 / 4 - z ^ 2 := by nlinarith
    have k3 := poleCheck_le _ _ _ _ _ _ qnorm_above z (by push_cast; linarith) (by push_cast; linarith)
    have k4 := poleCheck_le _ _ _ _ _ _ qnorm_below z (by push_cast; linarith) (by push_cast; linarith)
    push_cast at k3 k4
    have b1 : 15 / 8 < y := le_quotient hq0 (by rw [neg_sub]; exact hv) (by norm_num at k3 ⊢; linarith)
    have b2 : y < 2 := quotient_le hq0 (by rw [neg_sub]; exact hv) (by norm_num at k4 ⊢; linarith)
    obtain ⟨m, ex, hme, -⟩ := hrep
    have hyq : y = ((m * (2 : ℚ) ^ ex : ℚ) : ℝ) := by rw [hme]; push_cast; rfl
    have hsi := hs i hi (m * (2 : ℚ) ^ ex) (by rw [ha, hq, hy, hyq])
    rw [hsi]
    generalize (m * (2 : ℚ) ^ ex : ℚ) = t at hyq
    rw [C62_bucket (-2) 2 32 (by norm_num) (by norm_num)]
    rw [hyq] at b1 b2
    have b1' : (15 / 8 : ℚ) < t := by rw [← Rat.cast_lt (K := ℝ)]; push_cast; exact b1
    have b2' : t < 2 := by exact_mod_cast b2
    norm_num
    constructor <;> linarith
  have c3 := class_million 3 (by norm_num)
  have c4 := class_million 4 (by norm_num)
  have c5 := class_million 5 (by norm_num)
  have c7 := class_million 7 (by norm_num)
  rw [← hN] at c3 c4 c5 c7
  have v3 : classCounts.getD 3 0 = 12 := rfl
  have v4 : classCounts.getD 4 0 = 7668 := rfl
  have v5 : classCounts.getD 5 0 = 12 := rfl
  have v7 : classCounts.getD 7 0 = 87 := rfl
  rw [v3] at c3; rw [v4] at c4; rw [v5] at c5; rw [v7] at c7
  rw [histogram_card _ _ _ _ _ (by norm_num)]
  have hsub : (((Finset.range N).filter fun i => classOf (splitmixNat i) = 7) ∪ ((Finset.range N).filter fun i => classOf (splitmixNat i) = 3)) ∪
      (((Finset.range N).filter fun i => classOf (splitmixNat i) = 4) ∪ ((Finset.range N).filter fun i => classOf (splitmixNat i) = 5)) ⊆
      (Finset.range N).filter fun i => bucketIndex (-2) 2 32 (sample i) = ((31 : ℕ) : ℤ) := by
    intro i hi
    simp only [Finset.mem_union, Finset.mem_filter] at hi
    rw [Finset.mem_filter]
    have hiN : i ∈ Finset.range N := by tauto
    exact ⟨hiN, key i (Finset.mem_range.1 hiN) (by tauto)⟩
  refine le_trans (le_of_eq ?_) (Finset.card_le_card hsub)
  have disj : ∀ (k l : ℕ), k ≠ l → Disjoint ((Finset.range N).filter fun i => classOf (splitmixNat i) = k) ((Finset.range N).filter fun i => classOf (splitmixNat i) = l) :=
    fun k l hkl => Finset.disjoint_filter.2 fun i _ h1 h2 => hkl (h1.symm.trans h2)
  rw [Finset.card_union_of_disjoint, Finset.card_union_of_disjoint (disj 7 3 (by norm_num)), Finset.card_union_of_disjoint (disj 4 5 (by norm_num)), c3, c4, c5, c7]
  rw [Finset.disjoint_union_left, Finset.disjoint_union_right, Finset.disjoint_union_right]
  exact ⟨⟨disj 7 4 (by norm_num), disj 7 5 (by norm_num)⟩, disj 3 4 (by norm_num), disj 3 5 (by norm_num)⟩

/-- **C97** The histogram test of `rnorm` fails when `rnorm` calls the generated 64-bit `qnorm`: in the one bucket that it looks at, the samples are too dense by more than the
limit of 0.001. -/
theorem C97_rnorm_fails (hs : SqrtOk ext) (hf : 562 ≤ ext.fuel) (h : IeeeOk fx false u w) (hu : u ≤ 1 / 10 ^ 15) (hw : w ≤ 1 / 10 ^ 15) :
    ∃ e, polynomialCode ext fx false .qnorm ⟨-4999, 4⟩ ⟨4999, 4⟩ = .ok e ∧
      ∀ (calls calls' : String → List RV → RV) (g g' : Name → RV) (sample : ℕ → Fl) (pdf : ℚ → Fl), BitConsts .f64 g → CallsRunif calls g →
        (∀ a : ℝ, calls "qnorm" [.f a, .f 0, .f 1] = (Gen.qnorm e.toR).apply (ieeeInterp .f64 calls') g' [.f a, .f 0, .f 1]) → SamplesOf calls g sample →
        (∃ d : ℚ, pdf (31 / 16) = .num d ∧ |(d : ℝ) - normalPdf (31 / 16)| ≤ 1 / 10 ^ 5) → histogramPasses (-2) 2 pdf sample = false := by
  obtain ⟨e, h1, -, h3⟩ := C96_value hs hf h hu hw
  refine ⟨e, h1, fun calls calls' g g' sample pdf hg hr hq hsa hp => ?_⟩
  have key : ∀ N, N = 1000000 → (histogramError (-2) 2 32 N pdf (histogram (-2) 2 32 N sample)).lt (.num (1 / 1000)) = false := by
    intro N hN
    have h1 := rnorm_last_bucket (p := e.toR) h3 hg hr hq hsa N hN
    obtain ⟨d, hd, hd'⟩ := hp
    rw [C62_reports_last _ _ _ _ _ _ (by norm_num)]
    have hm : bucketMid (-2) 2 32 (32 - 1) = 31 / 16 := by norm_num [bucketMid]
    unfold bucketError
    rw [hm, hd]
    simp only [densityEst, show 32 - 1 = 31 from rfl]
    generalize (histogram (-2) 2 32 N sample).getD 31 0 = c at h1
    rw [hN]
    have hd0 := abs_le.1 hd'
    have hpd := pdf_19375_le
    have r2 : (d : ℝ) ≤ ((6112 / 100000 : ℚ) : ℝ) := by push_cast; norm_num at hd0 hpd; linarith
    have r2' := Rat.cast_le.1 r2
    have k1 : (7779 : ℚ) ≤ c := by exact_mod_cast h1
    show decide (_ < _) = false
    rw [decide_eq_false_iff_not, not_lt, le_abs]
    left
    norm_num
    linarith
  unfold histogramPasses
  exact key _ rfl

end

/-- The functions and samples of the example: the generated `runif`, the generated `qnorm` for the polynomial `p`, and the results as numbers of the test. -/
noncomputable def shippedCalls (p : RExpr) (f : String) (args : List RV) : RV :=
  if f = "runif" then Gen.runif.apply (ieeeInterp .f64 fun _ _ => .junk) (demoBits .f64) args
  else (Gen.qnorm p).apply (ieeeInterp .f64 fun _ _ => .junk) (demoBits .f64) args

theorem shipped_runif (p : RExpr) : CallsRunif (shippedCalls p) (demoBits .f64) := by
  intro index lo hi h0 h1
  show Gen.runif.apply (ieeeInterp .f64 fun _ _ => .junk) (demoBits .f64) _ = _
  rw [C93_runif_value (demo_bits _) index lo hi h0 h1, C93_runif_value (demo_bits _) index lo hi h0 h1]

theorem wideFx_small : (fmtOf false).eps ≤ 1 / 10 ^ 15 ∧ (fmtOf false).eps * (fmtOf false).tiny ≤ 1 / 10 ^ 15 := by
  have h1 : (fmtOf false).eps = 1 / 2 ^ 53 := eps_f64
  have h2 := FloatFmt.tiny_le (FloatFmt.wide_fmtOf false)
  rw [h1]
  norm_num at h2 ⊢
  linarith

/-- The hypotheses can be met. -/
example : ∃ e rows, polynomialCode tableExt wideFx false .qnorm ⟨-4999, 4⟩ ⟨4999, 4⟩ = .ok e ∧
    testRows tableExt false (TestSpec.meth01 "qnorm") (TestSpec.fl "0.0001") (TestSpec.fl "0.999") 237 = .ok rows ∧
    ¬TestPassesIE .f64 (rows.map (rowIE .f64)) (limitIE false 1000000 1000000)
      fun v => (Gen.qnorm e.toR).apply (ieeeInterp .f64 fun _ _ => .junk) (demoBits .f64) [v, .f 0, .f 1] := by
  obtain ⟨e, rows, h1, h2, h3⟩ := C96_test_fails (ext := tableExt) ⟨longExt_ok.1, longExt_ok.2⟩ (by decide) tableExt_rounds (wideFx_ieee false) wideFx_small.1 wideFx_small.2
  exact ⟨e, rows, h1, h2, h3 _ _⟩

open Classical in
example : ∃ e sample pdf, polynomialCode tableExt wideFx false .qnorm ⟨-4999, 4⟩ ⟨4999, 4⟩ = .ok e ∧ SamplesOf (shippedCalls e.toR) (demoBits .f64) sample ∧
    histogramPasses (-2) 2 pdf sample = false := by
  obtain ⟨e, h1, h2⟩ := C97_rnorm_fails (ext := tableExt) ⟨longExt_ok.1, longExt_ok.2⟩ (by decide) (wideFx_ieee false) wideFx_small.1 wideFx_small.2
  let sample : ℕ → Fl := fun i => if h : ∃ y : ℚ, Gen.rnorm.apply (ieeeInterp .f64 (shippedCalls e.toR)) (demoBits .f64) [.i i, .f 0, .f 1] = .f y then .num h.choose else .nan
  have hsa : SamplesOf (shippedCalls e.toR) (demoBits .f64) sample := by
    intro i _ y hy
    have hex : ∃ y : ℚ, Gen.rnorm.apply (ieeeInterp .f64 (shippedCalls e.toR)) (demoBits .f64) [.i i, .f 0, .f 1] = .f y := ⟨y, hy⟩
    show (if h : _ then _ else _) = _
    rw [dif_pos hex]
    have h2 := RV.f.inj (hy.symm.trans hex.choose_spec)
    rw [show hex.choose = y by exact_mod_cast h2.symm]
  obtain ⟨d, hd1, hd2⟩ := exists_rat_btwn (show normalPdf (31 / 16) - 1 / 10 ^ 5 < normalPdf (31 / 16) by norm_num)
  refine ⟨e, sample, fun _ => .num d, h1, hsa, h2 _ (fun _ _ => .junk) _ (demoBits .f64) _ _ (demo_bits _) (shipped_runif _) (fun a => rfl) hsa ⟨_, rfl, ?_⟩⟩
  rw [abs_le]; constructor <;> linarith

end Verif

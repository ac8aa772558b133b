import Verif.Props.TestFailsAcos
import Verif.Props.TestFailsLog

/-!
# C104 The generated 64-bit `log2` fails its first accuracy test

The witness is sample 71 of 237.
-/

namespace Verif
open RExpr Dec

/-- The mantissa of the sample, less 3/2. -/
def log2At : ℚ := 7114547259440986 / 2 ^ 52 - 3 / 2

theorem log2At_ok : (log2Head log2At).ok = true ∧ (log2Head log2At).err ≤ 3 / 2 * ulp64 ∧
    (|invLog2.1 * log2Series log2At + log2Mid.1 - 6596933757977829237123 / 10 ^ 22| ≤ 1 / 10 ^ 22 ∧ |log2Series log2At| ≤ 1) ∧
    |log2Cert64.gap (log2At / log2Cert64.hi) + 88990444049897 / 10 ^ 30| ≤ 1 / 10 ^ 30 ∧ |log2At / log2Cert64.hi| ≤ 1 := by decide +kernel

section
variable {ext : BdExt} {fx : FloatExt} {P : Gen.Parts} {calls : String → List RV → RV} {g : Name → RV} {v : ℝ}

/-- The polynomial of the library at the mantissa. -/
theorem log2_poly_71 (h : TestLibrary ext fx false P calls g v) (hv : v ≤ 1 / 10 ^ 18) :
    ∃ e : Expr, (∀ x, calls "log2" [x] = (Gen.log2 e.toR).apply (ieeeInterp .f64 calls) g [x]) ∧
      (∀ env : Name → RV, env ["x"] = .f (log2At : ℝ) → e.toR.denote (ieeeInterp .f64 calls) env = .f (5941989682843359 / 2 ^ 53)) ∧
      16756 / 10000 / 2 ^ 53 ≤ Real.logb 2 (7114547259440986 / 2 ^ 52) - 5941989682843359 / 2 ^ 53 ∧
      Real.logb 2 (7114547259440986 / 2 ^ 52) - 5941989682843359 / 2 ^ 53 ≤ 16757 / 10000 / 2 ^ 53 := by
  have hF : FloatFmt.f64.Wide := FloatFmt.wide_fmtOf false
  have hfit := log2_fits ext (by have := h.fuel; omega) 19 40 (8 / 10 ^ 39) 6 7 (169 / 10 ^ 18) (1170 / 1000) log2_ok_20
  obtain ⟨e, a, z, a0, h1, h2, h3, h4, h5, h6⟩ := hfit.code_last log2_ok_20 log2Box64_ok rfl log2Box64_small inv_log_two_digits logb_three_halves_digits h.lits eps_ulp64 (v' := 1 / 10 ^ 18)
    (by push_cast; exact hv) rfl rfl rfl (n := 18) rfl
  have hP := h.approx .log2 (by simp [approxSpecs]) _ _ e rfl h1
  have hfn : LinkedIE .f64 calls g (Gen.log2 e.toR) := h.fn "log2" (by decide +kernel) (by rw [← hP]; rfl)
  have h2' : (584962500721156318766229 / 1000000000000000000000000 : ℝ) ≤ a0 := by
    have : ((log2Box64.getD 0 (0, 0)).1 : ℝ) = ((584962500721156318766229 / 1000000000000000000000000 : ℚ) : ℝ) := rfl
    rw [this] at h2
    push_cast at h2
    exact h2
  have h3' : a0 ≤ (5849625007211563187664291 / 10000000000000000000000000 : ℝ) := by
    have : ((log2Box64.getD 0 (0, 0)).2 : ℝ) = ((5849625007211563187664291 / 10000000000000000000000000 : ℚ) : ℝ) := rfl
    rw [this] at h3
    push_cast at h3
    exact h3
  have h5' : |z - a0| ≤ 1 / 10 ^ 18 := by
    refine h5.trans ?_
    rw [abs_of_pos (by linarith)]
    have hv0 := h.lits.nonneg
    calc v * a0 ≤ 1 / 10 ^ 18 * 1 := mul_le_mul hv (by norm_num at h3' ⊢; linarith) (by linarith) (by norm_num)
      _ = _ := mul_one _
  have ha : a = 5268873800547026 / 2 ^ 53 := by
    rw [h4]
    have := abs_le.1 h5'
    norm_num at this h2' h3'
    refine FloatFmt.rnd_eq (F := .f64) (E := -1) ⟨5268873800547026, -53, by norm_num, by decide, by decide⟩ (by norm_num) (by decide) ?_ (by norm_num; linarith)
    have e : ((-1 : ℤ) - (FloatFmt.f64.mant : ℤ)) = -53 := by decide
    rw [e, abs_lt]
    norm_num
    constructor <;> linarith
  -- the value before the last rounding
  have key : ∀ x V : ℚ, |x| ≤ 1 / 4 → (log2Head x).ok = true → (log2Head x).err ≤ 3 / 2 * ulp64 → |invLog2.1 * log2Series x + log2Mid.1 - V| ≤ 1 / 10 ^ 22 ∧ |log2Series x| ≤ 1 →
      ∃ t : ℝ, |t - ((V : ℝ) + (5268873800547026 / 2 ^ 53 - 584962500721156318766229 / 1000000000000000000000000))| ≤ |(x : ℝ)| * (3 / 2 * (1 / 2 ^ 53)) + 1 / 10 ^ 21 ∧
        ∀ env : Name → RV, env ["x"] = .f (x : ℝ) → e.toR.denote (ieeeInterp .f64 calls) env = FloatFmt.f64.rne t := by
    intro x V hx hok herr hV
    have hx' : |(x : ℝ)| ≤ 1 / 4 := by
      have := (Rat.cast_le (K := ℝ)).2 hx
      push_cast at this
      exact this
    have hhi : ((log2Cert64.hi : ℚ) : ℝ) = 1 / 2 := by simp [log2Cert64, log2Cert]
    obtain ⟨y, q, y1, y2, y3⟩ := h6 ⟨x, x, 0, true⟩ x x ⟨le_rfl, le_rfl, by simp⟩ (by
      refine hx'.trans ?_
      rw [show (((log2Cert 19 40 (8 / 10 ^ 39) 6 7 (169 / 10 ^ 18) (1170 / 1000)).hi : ℚ) : ℝ) = 1 / 2 from hhi]; norm_num) hok
    have e1 := log2_interpolant hV
    have e2 : |q * x + a0 - log2Cert64.interpolant (1 / Real.log 2) (Real.logb 2 (3 / 2)) x| ≤ 1 / 10 ^ 30 := by
      refine y2.trans ?_
      have := (Rat.cast_le (K := ℝ)).2 log2_series.2.2
      push_cast at this
      exact this
    have e3 : |y - q| ≤ 3 / 2 * (1 / 2 ^ 53) := by
      have := (Rat.cast_le (K := ℝ)).2 herr
      push_cast [ulp64] at this
      exact y1.2.2.trans this
    have e4 : |(y - q) * x| ≤ |(x : ℝ)| * (3 / 2 * (1 / 2 ^ 53)) := by
      rw [abs_mul, mul_comm]
      exact mul_le_mul_of_nonneg_left e3 (abs_nonneg _)
    refine ⟨y * x + a, ?_, fun env henv => ?_⟩
    · rw [ha]
      generalize log2Cert64.interpolant (1 / Real.log 2) (Real.logb 2 (3 / 2)) x = I at *
      generalize |(x : ℝ)| * (3 / 2 * (1 / 2 ^ 53)) = B at *
      have e5 : y * x + 5268873800547026 / 2 ^ 53 - (V + (5268873800547026 / 2 ^ 53 - 584962500721156318766229 / 1000000000000000000000000)) =
        (y - q) * x + (q * x + a0 - I) + (I - V) - (a0 - 584962500721156318766229 / 1000000000000000000000000) := by ring
      rw [e5]
      generalize (y - q) * (x : ℝ) = A at *
      generalize q * (x : ℝ) = C at *
      rw [abs_le] at e1 e2 e4 ⊢
      norm_num at e1 e2 h2' h3' ⊢
      constructor <;> linarith
    · exact (y3 calls env henv).trans (methIE_mul_add (F := .f64) y x a)
  obtain ⟨k1, k2, k3, k4, k5⟩ := log2At_ok
  refine ⟨e, fun x => hfn [x], ?_, ?_⟩
  · obtain ⟨t, t1, t2⟩ := key log2At _ (by norm_num [log2At, abs_le]) k1 k2 k3
    have hx : |(log2At : ℝ)| ≤ 80 / 1000 := by norm_num [log2At, abs_le]
    generalize |(log2At : ℝ)| = B at *
    push_cast at t1
    rw [abs_le] at t1
    norm_num at t1
    have ht : FloatFmt.f64.rne t = .f (5941989682843359 / 2 ^ 53) := by
      have hB := (FloatFmt.bias_pow_ge hF).1
      norm_num at hB
      rw [FloatFmt.rne_f hF.ok (by rw [abs_le]; constructor <;> linarith)]
      refine congrArg RV.f ?_
      refine FloatFmt.rnd_eq (F := .f64) (E := -1) ⟨5941989682843359, -53, by norm_num, by decide, by decide⟩ (by norm_num) (by decide) ?_ (by norm_num; linarith)
      have e : ((-1 : ℤ) - (FloatFmt.f64.mant : ℤ)) = -53 := by decide
      rw [e, abs_lt]
      norm_num
      constructor <;> linarith
    rw [← ht]
    exact t2
  · have hW : (0 : ℚ) < log2Cert64.hi := by decide +kernel
    have hq : (log2At : ℝ) = log2Cert64.hi * (log2At / log2Cert64.hi : ℚ) := by
      have : (log2Cert64.hi : ℝ) ≠ 0 := by exact_mod_cast hW.ne'
      push_cast
      rw [mul_div_cancel₀ _ this]
    have e1 := log2_interpolant k3
    have e2 : |log2Cert64.interpolant (1 / Real.log 2) (Real.logb 2 (3 / 2)) log2At - Real.logb 2 (log2At + 3 / 2) - 1 / Real.log 2 * log2Cert64.gap (log2At / log2Cert64.hi)| ≤ 1 / 10 ^ 21 := by
      have := hfit.far hW _ k5
      change |log2Cert64.interpolant (1 / Real.log 2) (Real.logb 2 (3 / 2)) (log2Cert64.hi * (log2At / log2Cert64.hi : ℚ)) - Real.logb 2 (log2Cert64.hi * (log2At / log2Cert64.hi : ℚ) + 3 / 2) -
        1 / Real.log 2 * log2Cert64.gap (log2At / log2Cert64.hi)| ≤ ((log2Cert64.τ : ℚ) : ℝ) at this
      rw [← hq] at this
      refine this.trans ?_
      have hτ : log2Cert64.τ ≤ 1 / 10 ^ 21 := by decide +kernel
      have := (Rat.cast_le (K := ℝ)).2 hτ
      push_cast at this
      exact this
    have e3 : |(log2Cert64.gap (log2At / log2Cert64.hi) : ℝ) + 88990444049897 / 10 ^ 30| ≤ 1 / 10 ^ 30 := by
      have := (Rat.cast_le (K := ℝ)).2 k4
      push_cast at this
      exact this
    rw [show (log2At : ℝ) + 3 / 2 = 7114547259440986 / 2 ^ 52 by norm_num [log2At]] at e2
    obtain ⟨d1, d2⟩ := inv_log_two_digits
    have i1 : (invLog2.1 : ℝ) = ((14426950408889634073599 / 10 ^ 22 : ℚ) : ℝ) := rfl
    have e4 : |1 / Real.log 2 * (log2Cert64.gap (log2At / log2Cert64.hi) : ℝ) + 12838607224 / 10 ^ 26| ≤ 1 / 10 ^ 22 := by
      push_cast at d1 d2
      generalize 1 / Real.log 2 = κ at *
      generalize (log2Cert64.gap (log2At / log2Cert64.hi) : ℝ) = G at *
      have e5 : |κ * (G + 88990444049897 / 10 ^ 30)| ≤ 2 * (1 / 10 ^ 30) := by
        rw [abs_mul]
        refine mul_le_mul ?_ e3 (abs_nonneg _) (by norm_num)
        norm_num at d1 d2
        rw [abs_le]; constructor <;> linarith
      rw [mul_add] at e5
      generalize κ * G = A at *
      rw [abs_le] at e5 ⊢
      norm_num at e5 d1 d2 ⊢
      constructor <;> linarith
    generalize 1 / Real.log 2 * (log2Cert64.gap (log2At / log2Cert64.hi) : ℝ) = A at *
    generalize log2Cert64.interpolant (1 / Real.log 2) (Real.logb 2 (3 / 2)) log2At = I at *
    generalize Real.logb 2 (7114547259440986 / 2 ^ 52) = L at *
    push_cast at e1
    rw [abs_le] at e1 e2 e4
    norm_num at e1 e2 e4 ⊢
    constructor <;> linarith

/-- The generated 64-bit `log2` at the float next to the sample: the last sum is exact. -/
theorem log2_value_71 (h : TestLibrary ext fx false P calls g v) (hv : v ≤ 1 / 10 ^ 18) :
    calls "log2" [.f (7114547259440986 / 2 ^ 53)] = .f (-(3065209571897633 / 2 ^ 53)) ∧
      16756 / 10000 / 2 ^ 53 ≤ Real.logb 2 (7114547259440986 / 2 ^ 53) + 3065209571897633 / 2 ^ 53 ∧
      Real.logb 2 (7114547259440986 / 2 ^ 53) + 3065209571897633 / 2 ^ 53 ≤ 16757 / 10000 / 2 ^ 53 := by
  have hF : FloatFmt.f64.Wide := FloatFmt.wide_fmtOf false
  have hB := (FloatFmt.bias_pow_ge hF).1
  norm_num at hB
  obtain ⟨e, h1, h2, h3, h4⟩ := log2_poly_71 h hv
  have hb : FloatFmt.f64.bias = 1023 := by decide
  have hm : FloatFmt.f64.mant = 52 := by decide
  constructor
  · rw [h1]
    have := log2_value (F := .f64) (calls := calls) (g := g) hF (bias_lt_mant false) h.bits (p := e.toR) (E := 1022) (f := 2610947632070490) (by norm_num) (by decide) (by decide)
      (r := 5941989682843359 / 2 ^ 53) (fun env henv => h2 env (henv.trans (by rw [hm]; norm_num [log2At]))) (z := .f (-(3065209571897633 / 2 ^ 53))) (by
        rw [hb, show (5941989682843359 / 2 ^ 53 + (((1022 : ℕ) : ℤ) - ((1023 : ℕ) : ℤ) : ℤ) : ℝ) = -(3065209571897633 / 2 ^ 53) by norm_num]
        rw [FloatFmt.rne_f hF.ok (by rw [abs_le]; norm_num; constructor <;> linarith)]
        exact congrArg RV.f (FloatFmt.rnd_of_repr ⟨-3065209571897633, -53, by norm_num, by decide, by decide⟩))
    rw [← this, hb, hm]
    refine congrArg (fun t => RFn.apply _ _ _ [RV.f t]) ?_
    norm_num [zpow_neg]
  · have e1 : Real.logb 2 (7114547259440986 / 2 ^ 53) = Real.logb 2 (7114547259440986 / 2 ^ 52) - 1 := by
      rw [show (7114547259440986 / 2 ^ 53 : ℝ) = 7114547259440986 / 2 ^ 52 / 2 by norm_num, Real.logb_div (by norm_num) (by norm_num), Real.logb_self_eq_one (by norm_num)]
    rw [e1]
    norm_num at h3 h4 ⊢
    constructor <;> linarith

end

/-! ## The sample and its logarithm -/

/-- Half way between the float and the 16 digits that are written for it. -/
def log2Near : ℚ := 7114547259440986 / 2 ^ 53 + 111 / 10 ^ 19

/-- Where its logarithm lies. -/
def log2Mean : ℚ := -6130419143795263 / 2 ^ 54 + 36 / 100 / 2 ^ 53

theorem log2Near_rnd {x : ℝ} (hx : |x - log2Near| ≤ 112 / 10 ^ 19) : FloatFmt.f64.rnd x = 7114547259440986 / 2 ^ 53 := by
  have h1 := abs_le.1 hx
  norm_num [log2Near] at h1
  refine FloatFmt.rnd_eq (F := .f64) (E := -1) ⟨7114547259440986, -53, by norm_num, by decide, by decide⟩ (by norm_num) (by decide) ?_ (by norm_num; linarith)
  have e : ((-1 : ℤ) - (FloatFmt.f64.mant : ℤ)) = -53 := by decide
  rw [e, abs_lt]
  norm_num
  constructor <;> linarith

theorem log2Near_log {x : ℝ} (hx : |x - log2Near| ≤ 112 / 10 ^ 19) :
    -(2 / 1000 / 2 ^ 53) ≤ Real.logb 2 x - Real.logb 2 (7114547259440986 / 2 ^ 53) ∧ Real.logb 2 x - Real.logb 2 (7114547259440986 / 2 ^ 53) ≤ 367 / 1000 / 2 ^ 53 := by
  have h1 := abs_le.1 hx
  norm_num [log2Near] at h1
  have hl := Real.log_two_gt_d9
  have h0 : 0 < x := by linarith
  obtain ⟨f, hf⟩ : ∃ f : ℝ, f = 7114547259440986 / 2 ^ 53 := ⟨_, rfl⟩
  have hf0 : 0 < f := by rw [hf]; norm_num
  have e : Real.logb 2 x - Real.logb 2 f = Real.log (x / f) / Real.log 2 := by
    rw [Real.logb, Real.logb, Real.log_div h0.ne' hf0.ne', sub_div]
  rw [← hf, e]
  have u1 := Real.log_le_sub_one_of_pos (x := x / f) (by positivity)
  have u2 := Real.log_le_sub_one_of_pos (x := f / x) (by positivity)
  rw [show f / x = (x / f)⁻¹ by rw [inv_div], Real.log_inv, inv_div] at u2
  have u3 : x / f ≤ 1 + 2824 / 10 ^ 20 := by
    rw [div_le_iff₀ hf0, hf]
    norm_num
    linarith
  have u4 : f / x ≤ 1 + 14 / 10 ^ 20 := by
    rw [div_le_iff₀ h0, hf]
    norm_num
    linarith
  generalize Real.log (x / f) = L at *
  norm_num at hl
  rw [le_div_iff₀ (by linarith), div_le_iff₀ (by linarith)]
  norm_num at u3 u4 ⊢
  constructor <;> linarith

section
variable {ext : BdExt} {fx : FloatExt} {P : Gen.Parts} {calls : String → List RV → RV} {g : Name → RV} {v : ℝ}

/-- **C104** The generated 64-bit `log2` fails the accuracy test `test_log2_1` of the library: at sample 71 the error is more than 1.67 * 2^-53, the test allows 1.5 * 2^-53.  The conversions
may be exact or go through 16 digits. -/
theorem C104_log2_1_fails (h : TestLibrary ext fx false P calls g v) (hv : v ≤ 1 / 10 ^ 18) (hk : KeepsNumber ext log2Near (112 / 10 ^ 19) (112 / 10 ^ 19))
    (hk' : NearsFloat ext log2Mean (19 / 100 / 2 ^ 53) (12 / 100 / 2 ^ 53)) : ∀ s ∈ testSpecs, s.name = "test_log2_1" → ¬AccuracyTest ext false calls g s := by
  intro s hm hn
  have hs : s = TestSpec.maxAbs "log2" "test_log2_1" (TestSpec.meth "log2") (TestSpec.app "log2" [.path ["x"]]) (TestSpec.fl "0.7") (TestSpec.fl "1.0") (3 / 2) (3 / 2) 237 := by
    revert hn; revert s; simp [testSpecs, TestSpec.maxAbs]
  subst hs
  have hε : FloatFmt.f64.eps = 1 / 2 ^ 53 := eps_f64
  have hF : FloatFmt.f64.Wide := FloatFmt.wide_fmtOf false
  suffices hh : ∃ rows, testRows ext false (TestSpec.meth "log2") (TestSpec.fl "0.7") (TestSpec.fl "1.0") 237 = .ok rows ∧
      ¬TestPassesIE .f64 (rows.map (rowIE .f64)) (limitIE false (3 / 2) (3 / 2))
        ((TestSpec.maxAbs "log2" "test_log2_1" (TestSpec.meth "log2") (TestSpec.app "log2" [.path ["x"]]) (TestSpec.fl "0.7") (TestSpec.fl "1.0") (3 / 2) (3 / 2) 237).value .f64 calls g) by
    rintro ⟨rows, h1, h2⟩
    obtain ⟨rows', h3, h4⟩ := hh
    have h5 : rows = rows' := Res.ok.inj (h1.symm.trans h3)
    subst h5
    exact h4 h2
  obtain ⟨v1, v2, v3⟩ := log2_value_71 h hv
  refine fails_at h.sqrt h.fuel h.rounds false
    (TestSpec.maxAbs "log2" "test_log2_1" (TestSpec.meth "log2") (TestSpec.app "log2" [.path ["x"]]) (TestSpec.fl "0.7") (TestSpec.fl "1.0") (3 / 2) (3 / 2) 237)
    hm _ _ _ _ _ rfl (V := Real.logb 2) (a := 7 / 10) (b := 1) (fun V' a' b' hV => by simpa [testMeaning, TestSpec.maxAbs] using hV)
    (f := TestSpec.value _ .f64 calls g) (fun j hj x hx => ?_) (i := 71) (by norm_num) (fun d dy de hd hv1 _ => ?_)
  · have hτ := FloatFmt.tiny_le hF
    have hτ0 := FloatFmt.tiny_pos (F := .f64)
    have hlib : LibraryOk ext fx false P calls g (FloatFmt.f64.eps * (1 + v) + v) (FloatFmt.f64.eps * FloatFmt.f64.tiny) := ⟨h.toLibrary, h.sqrt, by have := h.fuel; omega, h.lits.ieee, by
      have := h.close; have := h.lits.nonneg
      rw [hε]; norm_num at *; linarith, by rw [hε]; norm_num at *; linarith⟩
    have hx1 : 1 / 2 ≤ x ∧ x ≤ 2 := by
      have h5 := abs_le.1 hx
      have h6 : (j : ℝ) ≤ 236 := by exact_mod_cast Nat.le_of_lt_succ hj
      have h7 : (0 : ℝ) ≤ j := by positivity
      push_cast at h5
      norm_num at h5
      constructor <;> linarith
    have a1 : 1 / 2 ≤ FloatFmt.f64.rnd x := FloatFmt.le_rnd ⟨1, -1, by norm_num, by decide, by decide⟩ hx1.1
    have a2 : FloatFmt.f64.rnd x ≤ 2 := FloatFmt.rnd_le ⟨1, 1, by norm_num, by decide, by decide⟩ hx1.2
    have hb : (16 : ℝ) < 2 ^ (FloatFmt.f64.bias + 1) := lt_of_lt_of_le (by norm_num : (16 : ℝ) < 2 ^ 5) (pow_le_pow_right₀ (by norm_num) (by decide))
    norm_num at hτ
    obtain ⟨y, y1, -, y2⟩ := hlib.log2.val (FloatFmt.f64.rnd x) (FloatFmt.rnd_repr _) (by change FloatFmt.f64.tiny ≤ _; linarith)
      (by change _ < (2 : ℝ) ^ (FloatFmt.f64.bias + 1); linarith)
    refine ⟨y, y1, ?_⟩
    have hV : |Real.logb 2 (FloatFmt.f64.rnd x)| ≤ 1 := by
      rw [abs_le]
      constructor
      · rw [Real.le_logb_iff_rpow_le (by norm_num) (by linarith)]
        rw [Real.rpow_neg (by norm_num)]
        norm_num
        linarith
      · rw [Real.logb_le_iff_le_rpow (by norm_num) (by linarith)]
        norm_num
        linarith
    have hδ := hlib.log2_small
    rw [show (fmtOf false).eps = 1 / 2 ^ 53 from hε] at y2
    have h9 := abs_sub_abs_le_abs_sub y (Real.logb 2 (FloatFmt.f64.rnd x))
    change |y - Real.logb 2 (FloatFmt.f64.rnd x)| ≤ _ + _ * |Real.logb 2 (FloatFmt.f64.rnd x)| at y2
    generalize |Real.logb 2 (FloatFmt.f64.rnd x)| = L at *
    norm_num at y2 ⊢
    linarith
  · obtain ⟨w1, w, dw, w2, w3, w4, w5⟩ := row_entries hd
    have hx : |(d.val : ℝ) - log2Near| ≤ 112 / 10 ^ 19 := by
      have hpt := C72_points (ext := ext) (n := configDigits false) evals_07 evals_1 237 71 (by norm_num) (by norm_num)
      obtain ⟨t, p, p1, p2, p3⟩ := hpt
      have hpt' : EvalsTo ext (configDigits false) (samplePoint (TestSpec.fl "0.7") (TestSpec.fl "1.0") 237 71) log2Near (112 / 10 ^ 19) := by
        refine ⟨t, p, p1, p2, ?_⟩
        rw [show configDigits false = 40 from rfl] at p3
        have := abs_le.1 p3
        rw [abs_le]
        norm_num [log2Near, abs_of_pos] at this ⊢
        constructor <;> linarith
      have := KeepsNumber.sample hk hpt' (by norm_num) w1
      push_cast at this
      exact this
    obtain ⟨n1, n2⟩ := log2Near_log hx
    obtain ⟨z, hz, hzd⟩ : ∃ z, FloatFmt.f64.Repr z ∧ |(dy.val : ℝ) - z| ≤ 12 / 100 / 2 ^ 53 := by
      have hw : EvalsTo ext (configDigits false) w (log2Mean : ℚ) (19 / 100 / 2 ^ 53) := by
        refine ⟨w, dw, w2, w3, ?_⟩
        rw [w4]
        push_cast
        have e2 := abs_le.1 hv1
        rw [show configDigits false = 40 from rfl] at e2
        generalize Real.logb 2 (d.val : ℝ) = A at *
        generalize Real.logb 2 (7114547259440986 / 2 ^ 53) = B at *
        norm_num at e2 n1 n2 v2 v3
        rw [abs_le]
        norm_num [log2Mean]
        constructor <;> linarith
      exact NearsFloat.sample hk' hw (by norm_num) w5
    refine ⟨-(3065209571897633 / 2 ^ 53), 12 / 100 / 2 ^ 53, ?_, ?_, ?_⟩
    · show calls "log2" [.f (FloatFmt.f64.rnd d.val)] = _
      rw [log2Near_rnd hx]
      exact v1
    · refine (FloatFmt.rnd_nearest (F := .f64) (dy.val : ℝ) hz).trans ?_
      rw [abs_sub_comm]
      exact hzd
    · have h3 : 1673 / 1000 * (1 / 2 ^ 53) ≤ |-(3065209571897633 / 2 ^ 53) - Real.logb 2 d.val| := by
        rw [abs_sub_comm]
        refine le_trans ?_ (le_abs_self _)
        generalize Real.logb 2 (d.val : ℝ) = A at *
        generalize Real.logb 2 (7114547259440986 / 2 ^ 53) = B at *
        norm_num at n1 n2 v2 v3 ⊢
        linarith
      show ((accuracyLimit false (3 / 2) (3 / 2) : ℚ) : ℝ) < (1 - 3 * FloatFmt.f64.eps) * |-(3065209571897633 / 2 ^ 53) - Real.logb 2 d.val| -
        (1 + 3 * FloatFmt.f64.eps) * (12 / 100 / 2 ^ 53) - FloatFmt.f64.eps / 100
      generalize |-(3065209571897633 / 2 ^ 53) - Real.logb 2 d.val| = D at h3 ⊢
      have hlim : ((accuracyLimit false (3 / 2) (3 / 2) : ℚ) : ℝ) = 3 / 2 / 2 ^ 53 := by norm_num [accuracyLimit]
      rw [hε, hlim]
      norm_num at h3 ⊢
      linarith

end

/-! ## The hypotheses can be met -/

/-- The float next to the logarithm, as a decimal. -/
def log2Dec : Dec := ⟨-(6130419143795263 * 5 ^ 54), 54⟩

/-- Conversions that lose nothing, except next to the logarithm in question, where they round to the float. -/
def log2Ext : BdExt := { tableExt with toF64 := fun d => tableExt.toF64 (if |d.val - log2Mean| ≤ 19 / 100 / 2 ^ 53 then log2Dec else d) }

theorem log2Ext_conv (d : Dec) : ∃ b r, log2Ext.toF64 d = some b ∧ log2Ext.fromF64 b = some r ∧ r.val = (if |d.val - log2Mean| ≤ 19 / 100 / 2 ^ 53 then log2Dec else d).val ∧ 0 < r.scale := by
  have hv : ∀ d : Dec, (⟨d.int * 10 ^ (d.scale.natAbs + 1), d.scale + (d.scale.natAbs + 1 : ℕ)⟩ : Dec).val = d.val := by
    intro d
    generalize d.scale.natAbs + 1 = k
    have e : -(d.scale + (k : ℤ)) = -d.scale + -(k : ℤ) := by ring
    unfold Dec.val
    simp only [e, zpow_add₀ (show (10 : ℚ) ≠ 0 by norm_num), zpow_neg, zpow_natCast]
    push_cast
    field_simp
  exact ⟨_, _, rfl, by simp only [log2Ext, tableExt, Encodable.encodek]; rfl, hv _, by simp only; omega⟩

theorem log2Dec_val : log2Dec.val = -6130419143795263 / 2 ^ 54 := by norm_num [log2Dec, Dec.val, zpow_neg]

theorem log2Ext_rounds : RoundsNear log2Ext := by
  refine ⟨tableExt_rounds.f32, fun d _ => ?_⟩
  obtain ⟨b, r, h1, h2, h3, h4⟩ := log2Ext_conv d
  refine ⟨b, r, h1, h2, ?_, ?_, h4⟩
  · rw [h3]
    split_ifs with h
    · have h' := abs_le.1 h
      norm_num [log2Mean] at h'
      rw [log2Dec_val, abs_of_neg (show d.val < 0 by linarith), abs_le]
      norm_num
      constructor <;> linarith
    · rw [sub_self, abs_zero]; positivity
  · intro hd
    rw [h3]
    split_ifs
    · rw [log2Dec_val, abs_le]; norm_num
    · exact hd

theorem log2Ext_keeps : KeepsNumber log2Ext log2Near (112 / 10 ^ 19) (112 / 10 ^ 19) := by
  intro d hd
  obtain ⟨b, r, h1, h2, h3, -⟩ := log2Ext_conv d
  refine ⟨b, r, h1, h2, ?_⟩
  rw [h3, if_neg]
  · exact hd
  · intro h
    have h1 := abs_le.1 h
    have h2 := abs_le.1 hd
    norm_num [log2Mean, log2Near] at h1 h2
    linarith

theorem log2Ext_nears : NearsFloat log2Ext log2Mean (19 / 100 / 2 ^ 53) (12 / 100 / 2 ^ 53) := by
  intro d hd
  obtain ⟨b, r, h1, h2, h3, -⟩ := log2Ext_conv d
  refine ⟨b, r, h1, h2, -6130419143795263 / 2 ^ 54, ⟨-6130419143795263, -54, by norm_num [zpow_neg], by decide, by decide⟩, ?_⟩
  rw [h3, if_pos hd, log2Dec_val]
  norm_num

example : ∃ calls, ∀ s ∈ testSpecs, s.name = "test_log2_1" → ¬AccuracyTest log2Ext false calls (bitsBy log2Ext false) s := by
  obtain ⟨calls, h⟩ := C99_library_exists (ext := log2Ext) ⟨longExt_ok.1, longExt_ok.2⟩ (by decide) log2Ext_rounds false
  exact ⟨calls, C104_log2_1_fails h (by norm_num) log2Ext_keeps log2Ext_nears⟩

end Verif

import Verif.Props.IeeeSpecialLib

/-! # C88: the logarithms, powers and hyperbolic functions of the library at NaN and at the infinities -/

namespace Verif
open Gen

section
variable {ext : BdExt} {fx : FloatExt} {b32 : Bool} {P : Gen.Parts} {calls : String → List RV → RV} {g : Name → RV} {u w : ℝ}

theorem rne_one (b32 : Bool) : (fmtOf b32).rne 1 = .f 1 := by
  rw [rne_small (by norm_num), FloatFmt.rnd_of_repr (repr_one b32)]

theorem rne_zero (b32 : Bool) : (fmtOf b32).rne 0 = .f 0 := by
  rw [rne_small (by norm_num), FloatFmt.rnd_of_repr FloatFmt.repr_zero]

/-! ## Logarithms -/

/-- **C88** `log2` of a NaN is a finite number. -/
theorem C88_log2_nan_wrong (h : LibraryOk ext fx b32 P calls g u w) : ∃ y, calls "log2" [.nan] = .f y ∧ (fmtOf b32).Repr y ∧
    |y - ((fmtOf b32).bias + 1 + Real.logb 2 (3 / 2))| ≤ log2Bound b32 u w + (fmtOf b32).eps * ((fmtOf b32).bias + 3) := by
  obtain ⟨e, h1, h2⟩ := log2_code_ieee (ext := ext) h.lits h.hu h.hw (by have := h.fuel; omega)
  have ha := h.approx .log2 (by simp [approxSpecs]) _ _ e rfl h1
  have hx : LinkedIE (fmtOf b32) calls g (Gen.log2 e.toR) := h.fn "log2" (by decide +kernel) (by rw [← ha]; rfl)
  have hs := (log2Bound_small h.lits h.hu h.hw).2
  have hb4 : (fmtOf b32).bias * 4 ≤ 2 ^ (fmtOf b32).mant := by cases b32 <;> decide
  have hε := FloatFmt.eps_pos (F := fmtOf b32)
  obtain ⟨y, hy, hr, he⟩ := C88_log2_wrong (FloatFmt.wide_fmtOf b32) hb4 h.bits (by unfold log2Bound at hs; linarith) (h2 calls).1
  refine ⟨y, (hx _).trans hy, hr, he.trans ?_⟩
  unfold log2Bound; linarith

theorem LibraryOk.log2_nan (h : LibraryOk ext fx b32 P calls g u w) : ∃ y, calls "log2" [.nan] = .f y ∧ |y| ≤ 2000 := by
  obtain ⟨y, hy, -, he⟩ := C88_log2_nan_wrong h
  refine ⟨y, hy, ?_⟩
  have hs := (log2Bound_small h.lits h.hu h.hw).2
  have heps := eps_fmtOf b32
  norm_num at heps
  have hb := (bias_le b32).1
  have hl0 : 0 ≤ Real.logb 2 (3 / 2) := Real.logb_nonneg (by norm_num) (by norm_num)
  have hl1 : Real.logb 2 (3 / 2) ≤ 1 := by
    rw [Real.logb_le_iff_le_rpow (by norm_num) (by norm_num)]; norm_num
  have h0 : (0 : ℝ) ≤ (fmtOf b32).bias := Nat.cast_nonneg _
  have h1 : (fmtOf b32).eps * ((fmtOf b32).bias + 3) ≤ 1 / 16777216 * 1026 := mul_le_mul heps (by linarith) (by linarith) (by norm_num)
  have := abs_le.1 he
  rw [abs_le]; constructor <;> linarith

/-- A NaN is above every bound of `exp2`. -/
theorem LibraryOk.log2_nan_big (h : LibraryOk ext fx b32 P calls g u w) : ∃ y, calls "log2" [.nan] = .f y ∧ (fmtOf b32).bias + 1 ≤ y := by
  obtain ⟨y, hy, -, he⟩ := C88_log2_nan_wrong h
  refine ⟨y, hy, ?_⟩
  have hs := (log2Bound_small h.lits h.hu h.hw).2
  have heps := eps_fmtOf b32
  norm_num at heps
  have hb := (bias_le b32).1
  have hl0 : 1 / 2 ≤ Real.logb 2 (3 / 2) := by
    rw [Real.le_logb_iff_rpow_le (by norm_num) (by norm_num), ← Real.sqrt_eq_rpow, Real.sqrt_le_left (by norm_num)]
    norm_num
  have h0 : (0 : ℝ) ≤ (fmtOf b32).bias := Nat.cast_nonneg _
  have h1 : (fmtOf b32).eps * ((fmtOf b32).bias + 3) ≤ 1 / 16777216 * 1026 := mul_le_mul heps (by linarith) (by linarith) (by norm_num)
  have := abs_le.1 he
  linarith

theorem LibraryOk.log_nan (h : LibraryOk ext fx b32 P calls g u w) {n name : String} {m : ℝ} (hm : (name, m) ∈ constMeaning) (hm4 : |m| ≤ 4)
    (hn : ∀ c, g [name] = .f c → calls n [.nan] = binIE (fmtOf b32) .mul (calls "log2" [.nan]) (.f c)) : ∃ y, calls n [.nan] = .f y := by
  obtain ⟨y, hy, hy1⟩ := h.log2_nan
  obtain ⟨c, hc, -, he⟩ := h.const hm hm4
  have heps := eps_fmtOf b32
  norm_num at heps
  have hε := FloatFmt.eps_pos (F := fmtOf b32)
  rw [hn c hc, hy, binIE_mul]
  refine ⟨_, rne_small ?_⟩
  have h1 : |c| ≤ 8 := by
    have := abs_sub_abs_le_abs_sub c m
    have h2 : (fmtOf b32).eps * (|m| + 1 / 500) ≤ 1 / 2 * (4 + 1 / 500) := mul_le_mul (by linarith) (by linarith) (by positivity) (by norm_num)
    linarith
  rw [abs_mul]
  calc |y| * |c| ≤ 2000 * 8 := mul_le_mul hy1 h1 (abs_nonneg _) (by norm_num)
    _ ≤ 2 ^ 100 := by norm_num

/-- **C88** So are `ln` and `log10` of a NaN. -/
theorem C88_ln_wrong (h : LibraryOk ext fx b32 P calls g u w) : (∃ y, calls "ln" [.nan] = .f y) ∧ ∃ y, calls "log10" [.nan] = .f y := by
  have h1 := Real.log_two_gt_d9
  have h2 := Real.log_two_lt_d9
  norm_num at h1 h2
  have hm : 1 / Real.logb 2 (Real.exp 1) = Real.log 2 := by rw [logb_exp_one, one_div_one_div]
  obtain ⟨h3, h4⟩ := logb_10_bounds
  have h5 : 1 / 4 ≤ 1 / Real.logb 2 10 := one_div_le_one_div_of_le (by linarith) h4
  have h6 : 1 / Real.logb 2 10 ≤ 1 / 3 := one_div_le_one_div_of_le (by linarith) h3
  constructor
  · refine h.log_nan (name := "RECIP_LOG2_E") (m := Real.log 2) (by rw [← hm]; simp [constMeaning]) (by rw [abs_le]; constructor <;> linarith) fun c hc => ?_
    rw [show calls "ln" [.nan] = _ from h.fn "ln" (by decide +kernel) rfl [.nan]]
    simp only [Gen.ln, ofFty_apply, List.map, bindParams]
    simp [hc]
  · refine h.log_nan (name := "RECIP_LOG2_10") (m := 1 / Real.logb 2 10) (by simp [constMeaning]) (by rw [abs_le]; constructor <;> linarith) fun c hc => ?_
    rw [show calls "log10" [.nan] = _ from h.fn "log10" (by decide +kernel) rfl [.nan]]
    simp only [Gen.log10, ofFty_apply, List.map, bindParams]
    simp [hc]

/-- **C88** The logarithm of a NaN to the base of a NaN is one. -/
theorem C88_log_wrong (h : LibraryOk ext fx b32 P calls g u w) : calls "log" [.nan, .nan] = .f 1 := by
  obtain ⟨y, hy, hy1⟩ := h.log2_nan_big
  have hb := (bias_le b32).2
  rw [show calls "log" [.nan, .nan] = _ from h.fn "log" (by decide +kernel) rfl [.nan, .nan]]
  simp only [Gen.log, ofFty_apply, List.map, bindParams]
  have h0 : y ≠ 0 := by intro h0; rw [h0] at hy1; linarith
  simp [hy, divIE, binIE, h0, rne_one b32]

/-- **C88** `powf` of a NaN is infinity for every exponent from one; a NaN exponent gives a NaN. -/
theorem C88_powf_wrong (h : LibraryOk ext fx b32 P calls g u w) {y : ℝ} (hy : 1 ≤ y) : calls "powf" [.nan, .f y] = .inf false := by
  obtain ⟨l, hl, hl1⟩ := h.log2_nan_big
  have hb := (bias_le b32).2
  rw [h.powf_run, hl, binIE_mul]
  exact h.exp2.over (FloatFmt.wide_fmtOf b32) (by nlinarith) (repr_bias_half b32).1

theorem LibraryOk.log2_isFloat (h : LibraryOk ext fx b32 P calls g u w) {x : RV} (hx : ∀ a, x = .f a → (fmtOf b32).Repr a ∧ a < 2 ^ ((fmtOf b32).bias + 1)) (hf : x.IsFloat) : (calls "log2" [x]).IsFloat := by
  cases hf with
  | nan => obtain ⟨y, hy, -⟩ := h.log2_nan; rw [hy]; exact .f _
  | inf s =>
    cases s
    · obtain ⟨y, hy, -⟩ := h.log2.inf; rw [hy]; exact .f _
    · rw [h.log2.ninf]; exact .nan
  | f a =>
    rcases lt_or_ge a (fmtOf b32).tiny with h1 | h1
    · rw [h.log2.small a h1]; split <;> constructor
    · obtain ⟨y, hy, -⟩ := h.log2.val a (hx a rfl).1 h1 (hx a rfl).2
      rw [hy]; exact .f _

/-- **C88** A NaN exponent of `powf` gives a NaN, whatever the base. -/
theorem C88_powf (h : LibraryOk ext fx b32 P calls g u w) {x : RV} (hx : ∀ a, x = .f a → (fmtOf b32).Repr a ∧ a < 2 ^ ((fmtOf b32).bias + 1)) (hf : x.IsFloat) : calls "powf" [x, .nan] = .nan := by
  rw [h.powf_run, mul_nan (h.log2_isFloat hx hf), C88_exp2 h]

/-! ## Hyperbolic functions -/

/-- **C88** `sinh`, `cosh` and `tanh` of a NaN. -/
theorem C88_sinh_cosh_tanh (h : LibraryOk ext fx b32 P calls g u w) : calls "sinh" [.nan] = .nan ∧ calls "cosh" [.nan] = .nan ∧ calls "tanh" [.nan] = .nan := by
  obtain ⟨c, hc, -⟩ := h.log2_e
  refine ⟨?_, ?_, ?_⟩
  · rw [show calls "sinh" [.nan] = _ from h.fn "sinh" (by decide +kernel) rfl [.nan]]
    simp only [Gen.sinh, Gen.hypLets, ofFty_apply, List.map, bindParams, List.cons_append, List.nil_append]
    simp [hc, numIE_1 (FloatFmt.wide_fmtOf b32), C88_exp2 h]
  · rw [show calls "cosh" [.nan] = _ from h.fn "cosh" (by decide +kernel) rfl [.nan]]
    simp only [Gen.cosh, Gen.hypLets, ofFty_apply, List.map, bindParams, List.cons_append, List.nil_append]
    simp [hc, numIE_1 (FloatFmt.wide_fmtOf b32), C88_exp2 h]
  · rw [show calls "tanh" [.nan] = _ from h.fn "tanh" (by decide +kernel) rfl [.nan]]
    simp only [Gen.tanh, ofFty_apply, List.map, bindParams]
    simp [hc, numIE_1 (FloatFmt.wide_fmtOf b32), numIE_2, nan_mul (FloatFmt.rne_isFloat _), C88_exp2 h]

/-- **C88** `asinh` of a NaN or of an infinity is a finite number. -/
theorem C88_asinh_wrong (h : LibraryOk ext fx b32 P calls g u w) : (∃ y, calls "asinh" [.nan] = .f y) ∧ ∀ s, ∃ y, calls "asinh" [.inf s] = .f y := by
  have key : ∀ x, calls "asinh" [x] = _ := fun x => h.fn "asinh" (by decide +kernel) rfl [x]
  refine ⟨?_, fun s => ?_⟩
  · rw [key]
    simp only [Gen.asinh, ofFty_apply, List.map, bindParams]
    simp [numIE_1 (FloatFmt.wide_fmtOf b32), (C88_ln_wrong h).1]
  · obtain ⟨y, hy, -⟩ := h.ln.inf
    rw [key]
    simp only [Gen.asinh, ofFty_apply, List.map, bindParams]
    cases s <;> simp [numIE_1 (FloatFmt.wide_fmtOf b32), (C88_ln_wrong h).1, hy, mulIE, addIE, binIE, methIE]

/-- **C88** `acosh` of a NaN or of positive infinity is a finite number. -/
theorem C88_acosh_wrong (h : LibraryOk ext fx b32 P calls g u w) : (∃ y, calls "acosh" [.nan] = .f y) ∧ ∃ y, calls "acosh" [.inf false] = .f y := by
  have key : ∀ x, calls "acosh" [x] = _ := fun x => h.fn "acosh" (by decide +kernel) rfl [x]
  constructor
  · rw [key]
    simp only [Gen.acosh, ofFty_apply, List.map, bindParams]
    simp [numIE_1 (FloatFmt.wide_fmtOf b32), (C88_ln_wrong h).1]
  · obtain ⟨y, hy, -⟩ := h.ln.inf
    rw [key]
    simp only [Gen.acosh, ofFty_apply, List.map, bindParams]
    have h1 : binIE (fmtOf b32) .mul (.inf false) (.inf false) = .inf false := by simp [binIE, mulIE]
    have h2 : binIE (fmtOf b32) .sub (.inf false) (.f 1) = .inf false := by simp [binIE, addIE, unRV]
    have h3 : binIE (fmtOf b32) .add (.inf false) (.inf false) = .inf false := by simp [binIE, addIE]
    simp [numIE_1 (FloatFmt.wide_fmtOf b32), hy, h1, h2, h3]

/-- **C88** `acosh` of negative infinity. -/
theorem C88_acosh (h : LibraryOk ext fx b32 P calls g u w) : calls "acosh" [.inf true] = .nan := by
  rw [show calls "acosh" [.inf true] = _ from h.fn "acosh" (by decide +kernel) rfl [.inf true]]
  simp only [Gen.acosh, ofFty_apply, List.map, bindParams]
  simp [numIE_1 (FloatFmt.wide_fmtOf b32), h.bits.nan]

/-- **C88** `atanh` of a NaN is zero. -/
theorem C88_atanh_wrong (h : LibraryOk ext fx b32 P calls g u w) : calls "atanh" [.nan] = .f 0 := by
  obtain ⟨y, hy⟩ := (C88_ln_wrong h).1
  rw [h.atanh_run]
  simp [hy, rne_zero b32]

/-- **C88** `atanh` of an infinity is a NaN, as it should be. -/
theorem C88_atanh (h : LibraryOk ext fx b32 P calls g u w) (s : Bool) : calls "atanh" [.inf s] = .nan := by
  obtain ⟨y, hy, -⟩ := h.ln.inf
  rw [h.atanh_run]
  cases s <;> simp [binIE, addIE, mulIE, unRV, hy, h.ln.ninf]

end
end Verif

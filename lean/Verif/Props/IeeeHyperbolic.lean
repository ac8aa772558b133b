import Verif.Props.IeeeDerived

/-!
# C76: the hyperbolic functions in float arithmetic
-/

namespace Verif
open RExpr

section
variable {ext : BdExt} {fx : FloatExt} {b32 : Bool} {P : Gen.Parts} {calls : String → List RV → RV} {g : Name → RV} {u w : ℝ}

theorem tiny_eps (b32 : Bool) : 100 * (fmtOf b32).tiny ≤ (fmtOf b32).eps := by
  refine le_trans ?_ (eps_ge b32)
  rw [FloatFmt.tiny]
  have h : (2 : ℝ) ^ (1 - ((fmtOf b32).bias : ℤ)) ≤ 2 ^ (-126 : ℤ) := zpow_le_zpow_right₀ (by norm_num) (by cases b32 <;> decide)
  norm_num at h ⊢
  linarith

theorem two_pow_half_exp (x : ℝ) : (2 : ℝ) ^ (x / Real.log 2 - 1) = Real.exp x / 2 := by
  rw [Real.rpow_sub (by norm_num), two_pow_div_log, Real.rpow_one]

/-- The exponential halves that `sinh` and `cosh` are made of. -/
theorem LibraryOk.half_exp (h : LibraryOk ext fx b32 P calls g u w) {c x : ℝ} (hce : |c - 1 / Real.log 2| ≤ 3 / 2 * (fmtOf b32).eps)
    (hc1 : 577 / 400 ≤ c) (hc2 : c ≤ 3607 / 2500) (hx : |x / Real.log 2| ≤ (fmtOf b32).bias + 1 / 2) :
    ∃ y, calls "exp2" [(fmtOf b32).rne (x * c + -1)] = .f y ∧ 0 ≤ y ∧
      |y - Real.exp x / 2| ≤ (exp2Bound b32 u w + 6 * (fmtOf b32).eps * (|x| + 1)) * (Real.exp x / 2) + 2 * (fmtOf b32).tiny := by
  have hε := FloatFmt.eps_pos (F := fmtOf b32)
  have hF := FloatFmt.wide_fmtOf b32
  have hτ : (fmtOf b32).tiny ≤ 1 := (FloatFmt.tiny_le hF).trans (by norm_num)
  obtain ⟨ha, hsm⟩ := arg_small (b32 := b32) (a := x) (by linarith)
  have hxc := arg_rne ha hc1 hc2
  have hrn := rne_small (b32 := b32) (x := x * c + -1) (by
    refine (abs_add_le _ _).trans ?_
    rw [abs_neg, abs_one]
    refine le_trans (by linarith : _ ≤ (2001 : ℝ)) (by norm_num))
  rw [hrn]
  have hd := (exp_arg (a := x) hce hc1 hc2).1
  have h4 := FloatFmt.rnd_err (F := fmtOf b32) (x * c + -1)
  have ha0 := abs_nonneg x
  have h5 : |x * c + -1| ≤ 1443 / 1000 * |x| + 1 := by
    refine (abs_add_le _ _).trans ?_
    rw [abs_neg, abs_one, abs_mul, abs_of_pos (by linarith : 0 < c), mul_comm]
    have := mul_le_mul_of_nonneg_right hc2 ha0
    linarith
  have h6 := mul_le_mul_of_nonneg_left (add_le_add h5 hτ) hε.le
  have h7 := abs_add_le ((fmtOf b32).rnd (x * c + -1) - (x * c + -1)) (x * c - x / Real.log 2)
  have hD : |(fmtOf b32).rnd (x * c + -1) - (x / Real.log 2 - 1)| ≤ 3 * (fmtOf b32).eps * (|x| + 1) := by
    rw [show (fmtOf b32).rnd (x * c + -1) - (x / Real.log 2 - 1) = (fmtOf b32).rnd (x * c + -1) - (x * c + -1) + (x * c - x / Real.log 2) by ring]
    nlinarith
  have hx' := (abs_le.1 hx).2
  obtain ⟨y, hy, h0, he⟩ := h.exp2.any h.exp2_small.1 h.exp2_small.2 (FloatFmt.rnd_repr _) hD (by linarith) (by linarith)
  rw [two_pow_half_exp] at he
  refine ⟨y, hy, h0, he.trans (le_of_eq ?_)⟩
  ring

theorem LibraryOk.sinh_run (h : LibraryOk ext fx b32 P calls g u w) {c : ℝ} (hc : g ["LOG2_E"] = .f c) (x : ℝ) :
    calls "sinh" [.f x] = binIE (fmtOf b32) .sub (calls "exp2" [(fmtOf b32).rne (x * c + -1)]) (calls "exp2" [(fmtOf b32).rne (-x * c + -1)]) := by
  rw [show calls "sinh" [.f x] = _ from h.fn "sinh" (by decide +kernel) rfl [.f x]]
  simp only [Gen.sinh, Gen.hypLets, ofFty_apply, List.map, bindParams, List.cons_append, List.nil_append]
  simp [hc, numIE_1 (FloatFmt.wide_fmtOf b32), unRV, mul_neg, neg_mul]

theorem LibraryOk.cosh_run (h : LibraryOk ext fx b32 P calls g u w) {c : ℝ} (hc : g ["LOG2_E"] = .f c) (x : ℝ) :
    calls "cosh" [.f x] = binIE (fmtOf b32) .add (calls "exp2" [(fmtOf b32).rne (x * c + -1)]) (calls "exp2" [(fmtOf b32).rne (-x * c + -1)]) := by
  rw [show calls "cosh" [.f x] = _ from h.fn "cosh" (by decide +kernel) rfl [.f x]]
  simp only [Gen.cosh, Gen.hypLets, ofFty_apply, List.map, bindParams, List.cons_append, List.nil_append]
  simp [hc, numIE_1 (FloatFmt.wide_fmtOf b32), unRV, mul_neg, neg_mul]

/-- The last rounding of `sinh` and `cosh`. -/
theorem hyp_close {y₁ y₂ p q z E ε τ r : ℝ} (hε : 0 < ε) (hτ0 : 0 < τ) (hτ : 100 * τ ≤ ε) (hε1 : ε ≤ 1 / 10000) (hE : E ≤ 1 / 10) (hpq : 1 ≤ p + q)
    (h1 : |y₁ - p| ≤ E * p + 2 * τ) (h2 : |y₂ - q| ≤ E * q + 2 * τ) (hy₁ : 0 ≤ y₁) (hy₂ : 0 ≤ y₂) {t : ℝ} (ht : z = y₁ + t * y₂) (h3 : t = 1 ∨ t = -1) (hr : |r - z| ≤ ε * (|z| + τ)) :
    |z| ≤ 6 / 5 * (p + q) ∧ |r - (p + t * q)| ≤ (E + 3 * ε) * (p + q) := by
  have ht1 : |t| = 1 := by rcases h3 with rfl | rfl <;> simp
  have a1 := abs_le.1 h1
  have a2 := abs_le.1 h2
  have hz : |z| ≤ y₁ + y₂ := by
    rw [ht]; refine (abs_add_le _ _).trans ?_
    rw [abs_mul, ht1, one_mul, abs_of_nonneg hy₁, abs_of_nonneg hy₂]
  have hEp : E * (p + q) ≤ 1 / 10 * (p + q) := mul_le_mul_of_nonneg_right hE (by linarith)
  have hz2 : |z| ≤ 6 / 5 * (p + q) := by nlinarith
  refine ⟨hz2, ?_⟩
  have h4 : |z - (p + t * q)| ≤ E * (p + q) + 4 * τ := by
    rw [ht, show y₁ + t * y₂ - (p + t * q) = (y₁ - p) + t * (y₂ - q) by ring]
    refine (abs_add_le _ _).trans ?_
    rw [abs_mul, ht1, one_mul]; linarith
  have h5 := abs_add_le (r - z) (z - (p + t * q))
  rw [sub_add_sub_cancel] at h5
  have h6 : ε * (|z| + τ) ≤ ε * (6 / 5 * (p + q) + 1 / 100 * (p + q)) := mul_le_mul_of_nonneg_left (by nlinarith) hε.le
  have h7 : ε * 1 ≤ ε * (p + q) := mul_le_mul_of_nonneg_left hpq hε.le
  nlinarith

theorem cosh_sum (x : ℝ) : Real.exp x / 2 + Real.exp (-x) / 2 = Real.cosh x := by rw [Real.cosh_eq]; ring
theorem sinh_diff (x : ℝ) : Real.exp x / 2 + -1 * (Real.exp (-x) / 2) = Real.sinh x := by rw [Real.sinh_eq]; ring

theorem cosh_below {x : ℝ} (hx : |x / Real.log 2| ≤ (fmtOf b32).bias + 1 / 2) : 6 / 5 * Real.cosh x ≤ 2 ^ (fmtOf b32).bias := by
  have hl := Real.log_two_gt_d9
  norm_num at hl
  have hb : (2 : ℝ) ^ 100 ≤ 2 ^ (fmtOf b32).bias := pow_le_pow_right₀ (by norm_num) (by cases b32 <;> decide)
  rw [← Real.cosh_abs, ← cosh_sum]
  have h1 : Real.exp (-|x|) ≤ 1 := Real.exp_le_one_iff.2 (by simp)
  have h2 : Real.exp |x| / 2 ≤ 5 / 7 * 2 ^ (fmtOf b32).bias := by
    rw [← two_pow_half_exp]
    rw [abs_div, abs_of_pos (by linarith : 0 < Real.log 2)] at hx
    calc (2 : ℝ) ^ (|x| / Real.log 2 - 1) ≤ 2 ^ (((fmtOf b32).bias : ℝ) - 1 / 2) := Real.rpow_le_rpow_of_exponent_le (by norm_num) (by linarith)
      _ ≤ _ := by
        rw [Real.rpow_sub (by norm_num), Real.rpow_natCast, ← Real.sqrt_eq_rpow, div_eq_inv_mul]
        refine mul_le_mul_of_nonneg_right ?_ (by positivity)
        rw [inv_le_comm₀ (by positivity) (by norm_num), Real.le_sqrt' (by norm_num)]
        norm_num
  norm_num at hb
  linarith

/-- **C76** Generated `sinh` and `cosh` in float arithmetic: the error is relative to `cosh`, for every argument up to the largest float. -/
theorem C76_sinh_cosh (h : LibraryOk ext fx b32 P calls g u w) {x : ℝ} (hx : |x / Real.log 2| ≤ (fmtOf b32).bias + 1 / 2) :
    (∃ y, calls "sinh" [.f x] = .f y ∧ |y - Real.sinh x| ≤ (exp2Bound b32 u w + 9 * (fmtOf b32).eps * (|x| + 1)) * Real.cosh x) ∧
    (∃ y, calls "cosh" [.f x] = .f y ∧ |y - Real.cosh x| ≤ (exp2Bound b32 u w + 9 * (fmtOf b32).eps * (|x| + 1)) * Real.cosh x) := by
  obtain ⟨c, hc, -, hce, hc1, hc2⟩ := h.log2_e
  have hF := FloatFmt.wide_fmtOf b32
  have hε := FloatFmt.eps_pos (F := fmtOf b32)
  have heps := eps_fmtOf b32
  norm_num at heps
  obtain ⟨y₁, hy₁, p₁, e₁⟩ := h.half_exp hce hc1 hc2 hx
  obtain ⟨y₂, hy₂, p₂, e₂⟩ := h.half_exp (x := -x) hce hc1 hc2 (by rw [neg_div, abs_neg]; exact hx)
  rw [abs_neg] at e₂
  obtain ⟨ha, hsm⟩ := arg_small (b32 := b32) (a := x) (by linarith)
  have hs := h.exp2_small
  have hE0 : 0 ≤ exp2Bound b32 u w + 6 * (fmtOf b32).eps * (|x| + 1) := by
    have := abs_nonneg x
    have : 0 ≤ 6 * (fmtOf b32).eps * (|x| + 1) := by positivity
    linarith
  have hpq : 1 ≤ Real.exp x / 2 + Real.exp (-x) / 2 := by rw [cosh_sum]; exact Real.one_le_cosh x
  have key : ∀ t : ℝ, t = 1 ∨ t = -1 → (fmtOf b32).rne (y₁ + t * y₂) = .f ((fmtOf b32).rnd (y₁ + t * y₂)) ∧
      |(fmtOf b32).rnd (y₁ + t * y₂) - (Real.exp x / 2 + t * (Real.exp (-x) / 2))| ≤ (exp2Bound b32 u w + 9 * (fmtOf b32).eps * (|x| + 1)) * Real.cosh x := by
    intro t ht
    obtain ⟨k1, k2⟩ := hyp_close hε (FloatFmt.tiny_pos (F := fmtOf b32)) (tiny_eps b32) (by linarith) (by linarith) hpq e₁ e₂ p₁ p₂ rfl ht
      (FloatFmt.rnd_err (F := fmtOf b32) (y₁ + t * y₂))
    rw [cosh_sum] at k1 k2
    refine ⟨FloatFmt.rne_f hF.ok (k1.trans (cosh_below hx)), k2.trans (mul_le_mul_of_nonneg_right ?_ (Real.cosh_pos x).le)⟩
    nlinarith [abs_nonneg x]
  constructor
  · obtain ⟨k1, k2⟩ := key (-1) (.inr rfl)
    rw [sinh_diff] at k2
    refine ⟨_, ?_, k2⟩
    rw [h.sinh_run hc, hy₁, hy₂, binIE_sub, ← k1]
    congr 1; ring
  · obtain ⟨k1, k2⟩ := key 1 (.inl rfl)
    rw [one_mul, one_mul, cosh_sum] at k2
    refine ⟨_, ?_, k2⟩
    rw [one_mul] at k1
    rw [h.cosh_run hc, hy₁, hy₂, binIE_add, k1]

/-- The product with `LOG2_E` of a large argument. -/
theorem arg_large {a c : ℝ} (hc : |c - 1 / Real.log 2| ≤ 3 / 2 * (fmtOf b32).eps) (h : ((fmtOf b32).bias : ℝ) + 7 / 4 ≤ a / Real.log 2) : (fmtOf b32).bias + 3 / 2 ≤ a * c := by
  have hl := Real.log_two_gt_d9
  have hl2 := Real.log_two_lt_d9
  norm_num at hl hl2
  have h1 : ((fmtOf b32).bias : ℝ) + 3 / 4 ≤ (a - Real.log 2) / Real.log 2 := by
    rw [sub_div, div_self (by linarith)]; linarith
  have h2 := (arg_far hc).1 h1
  have heps := eps_fmtOf b32
  norm_num at heps
  have h3 : 14426 / 10000 - 1 / 10000 ≤ c := by linarith [(abs_le.1 hc).1, inv_log_two.1]
  nlinarith

/-- **C76** Large arguments of `sinh` and `cosh` give infinities of the right sign, and so do the infinities. -/
theorem C76_sinh_cosh_high (h : LibraryOk ext fx b32 P calls g u w) {x : ℝ} (hx : ((fmtOf b32).bias : ℝ) + 7 / 4 ≤ x / Real.log 2) :
    calls "sinh" [.f x] = .inf false ∧ calls "cosh" [.f x] = .inf false ∧ calls "sinh" [.f (-x)] = .inf true ∧ calls "cosh" [.f (-x)] = .inf false := by
  obtain ⟨c, hc, -, hce, hc1, hc2⟩ := h.log2_e
  have h1 := arg_large hce hx
  have hb := bias_le b32
  have h2 := h.exp2.over (FloatFmt.wide_fmtOf b32) (x := x * c + -1) (by linarith) (repr_bias_half b32).1
  obtain ⟨y, h3, -, -⟩ := h.exp2.under (x := -x * c + -1) (by linarith) (by linarith) (repr_bias_half b32).2
  rw [h.sinh_run hc, h.sinh_run hc, h.cosh_run hc, h.cosh_run hc, neg_neg, h2, h3]
  simp [binIE, addIE, unRV]

theorem C76_sinh_cosh_inf (h : LibraryOk ext fx b32 P calls g u w) (s : Bool) : calls "sinh" [.inf s] = .inf s ∧ calls "cosh" [.inf s] = .inf false := by
  obtain ⟨c, hc, -, hce, hc1, hc2⟩ := h.log2_e
  have hi := h.exp2.inf true
  have hi2 := h.exp2.inf false
  simp only [if_true, if_false, Bool.false_eq_true] at hi hi2
  have h1 : c ≠ 0 := by intro h0; rw [h0] at hc1; norm_num at hc1
  have h2 : ¬ c < 0 := by linarith
  have h3 : 0 < c := by linarith
  constructor
  · rw [show calls "sinh" [.inf s] = _ from h.fn "sinh" (by decide +kernel) rfl [.inf s]]
    simp only [Gen.sinh, Gen.hypLets, ofFty_apply, List.map, bindParams, List.cons_append, List.nil_append]
    cases s <;> simp [hc, numIE_1 (FloatFmt.wide_fmtOf b32), unRV, methIE, mulIE, addIE, h1, h2, h3, hi, hi2, binIE]
  · rw [show calls "cosh" [.inf s] = _ from h.fn "cosh" (by decide +kernel) rfl [.inf s]]
    simp only [Gen.cosh, Gen.hypLets, ofFty_apply, List.map, bindParams, List.cons_append, List.nil_append]
    cases s <;> simp [hc, numIE_1 (FloatFmt.wide_fmtOf b32), unRV, methIE, mulIE, addIE, h1, h2, h3, hi, hi2, binIE]

/-! ## `tanh` -/

theorem tanh_frac (x : ℝ) : (Real.exp (2 * x) - 1) / (Real.exp (2 * x) + 1) = Real.tanh x := by
  have h1 : Real.exp (2 * x) = Real.exp x * Real.exp x := by rw [← Real.exp_add]; congr 1; ring
  rw [Real.tanh_eq_sinh_div_cosh, Real.sinh_eq, Real.cosh_eq, Real.exp_neg, h1]
  have := Real.exp_pos x
  field_simp

theorem tanh_slope (x : ℝ) : (|x| + 1) * Real.exp (2 * x) ≤ (Real.exp (2 * x) + 1) ^ 2 / 2 ∧ Real.exp (2 * x) ≤ (Real.exp (2 * x) + 1) ^ 2 / 4 := by
  have h1 : Real.exp (2 * x) = Real.exp x * Real.exp x := by rw [← Real.exp_add]; congr 1; ring
  have hp := Real.exp_pos x
  have h2 : Real.exp (2 * x) + 1 = 2 * Real.exp x * Real.cosh x := by
    rw [h1, Real.cosh_eq, Real.exp_neg]; field_simp
  have hc := Real.one_le_cosh x
  have h3 : |x| + 1 ≤ 2 * Real.cosh x := by
    rw [← Real.cosh_abs, Real.cosh_eq]
    have := Real.add_one_le_exp |x|
    have := Real.exp_pos (-|x|)
    linarith
  rw [h2, h1]
  have hT : 0 < Real.exp x * Real.exp x := by positivity
  constructor
  · calc (|x| + 1) * (Real.exp x * Real.exp x) ≤ 2 * Real.cosh x * (Real.exp x * Real.exp x) := mul_le_mul_of_nonneg_right h3 hT.le
      _ ≤ 2 * Real.cosh x * Real.cosh x * (Real.exp x * Real.exp x) := mul_le_mul_of_nonneg_right (by nlinarith) hT.le
      _ = _ := by ring
  · have : Real.exp x * Real.exp x * 1 ≤ Real.exp x * Real.exp x * (Real.cosh x * Real.cosh x) := mul_le_mul_of_nonneg_left (by nlinarith) hT.le
    linarith

/-- How an error of the exponential shows in `tanh`. -/
theorem tanh_of_exp {E T η τ κ : ℝ} (hT : 0 < T) (hτ0 : 0 ≤ τ) (hτ : τ ≤ 1 / 100) (hη : η ≤ 1 / 10) (h : |E - T| ≤ η * T + 2 * τ) (hκ : η * T ≤ κ * (T + 1) ^ 2) :
    |(E - 1) / (E + 1) - (T - 1) / (T + 1)| ≤ 9 / 4 * κ + 5 * τ := by
  have h1 := abs_le.1 h
  have h2 : η * T ≤ 1 / 10 * T := mul_le_mul_of_nonneg_right hη hT.le
  have h3 : 9 / 10 * (T + 1) ≤ E + 1 := by linarith
  have hE : 0 < E + 1 := by linarith
  have hT1 : 0 < T + 1 := by linarith
  have h4 : (E - 1) / (E + 1) - (T - 1) / (T + 1) = 2 * (E - T) / ((E + 1) * (T + 1)) := by field_simp; ring
  rw [h4, abs_div, abs_of_pos (by positivity : 0 < (E + 1) * (T + 1)), div_le_iff₀ (by positivity), abs_mul, abs_two]
  have h5 : 9 / 10 * (T + 1) * (T + 1) ≤ (E + 1) * (T + 1) := mul_le_mul_of_nonneg_right h3 hT1.le
  have hκ0 : 0 ≤ κ * (T + 1) ^ 2 + 2 * τ := by linarith [abs_nonneg (E - T)]
  have h6 : 1 ≤ (T + 1) ^ 2 := by nlinarith
  have h7 : 0 ≤ κ + 2 * τ := by
    by_contra hc
    push Not at hc
    nlinarith
  have h8 : 0 ≤ 9 / 4 * κ + 5 * τ := by linarith
  have h9 := mul_le_mul_of_nonneg_left h5 h8
  refine le_trans ?_ h9
  have h10 : τ * 1 ≤ τ * (T + 1) ^ 2 := mul_le_mul_of_nonneg_left h6 hτ0
  nlinarith

/-- The roundings of `tanh`. -/
theorem tanh_rounds {E n d r ε τ : ℝ} (hE : 0 ≤ E) (hε : 0 < ε) (hε1 : ε ≤ 1 / 10000) (hτ : τ ≤ 1 / 100)
    (hn : |n - (E - 1)| ≤ ε * (|E - 1| + τ)) (hd : |d - (E + 1)| ≤ ε * (|E + 1| + τ)) (hr : |r - n / d| ≤ ε * (|n / d| + τ)) (hnd : |n / d| ≤ 1) :
    |r - (E - 1) / (E + 1)| ≤ 7 / 2 * ε := by
  have hE1 : 0 < E + 1 := by linarith
  have h1 : |E - 1| ≤ E + 1 := by rw [abs_le]; constructor <;> linarith
  rw [abs_of_pos hE1] at hd
  have hn' : |n - (E - 1)| ≤ 101 / 100 * ε * (E + 1) := hn.trans (by nlinarith)
  have hd' : |d - (E + 1)| ≤ 101 / 100 * ε * (E + 1) := hd.trans (by nlinarith)
  have hd1 : 99 / 100 * (E + 1) ≤ d := by
    have h2 := (abs_le.1 hd').1
    have h3 : ε * (E + 1) ≤ 1 / 10000 * (E + 1) := mul_le_mul_of_nonneg_right hε1 hE1.le
    linarith
  have hd0 : 0 < d := by linarith
  have h2 : n / d - (E - 1) / (E + 1) = ((n - (E - 1)) - (d - (E + 1)) * ((E - 1) / (E + 1))) / d := by field_simp; ring
  have h3 : |(E - 1) / (E + 1)| ≤ 1 := by rw [abs_div, abs_of_pos hE1, div_le_one hE1]; exact h1
  have h4 : |n / d - (E - 1) / (E + 1)| ≤ 21 / 10 * ε := by
    rw [h2, abs_div, abs_of_pos hd0, div_le_iff₀ hd0]
    refine (abs_sub _ _).trans ?_
    rw [abs_mul]
    have h5 : |d - (E + 1)| * |(E - 1) / (E + 1)| ≤ |d - (E + 1)| * 1 := mul_le_mul_of_nonneg_left h3 (abs_nonneg _)
    have h6 := mul_le_mul_of_nonneg_left hd1 hε.le
    nlinarith
  have h5 := abs_add_le (r - n / d) (n / d - (E - 1) / (E + 1))
  rw [sub_add_sub_cancel] at h5
  have h6 : ε * (|n / d| + τ) ≤ ε * (101 / 100) := mul_le_mul_of_nonneg_left (by linarith) hε.le
  linarith

/-- The factor of `tanh`. -/
theorem tanh_factor {c : ℝ} (hce : |c - 1 / Real.log 2| ≤ 3 / 2 * (fmtOf b32).eps) (hc1 : 577 / 400 ≤ c) (hc2 : c ≤ 3607 / 2500) :
    (fmtOf b32).rne (c * 2) = .f ((fmtOf b32).rnd (c * 2)) ∧ |(fmtOf b32).rnd (c * 2) - 2 / Real.log 2| ≤ 6 * (fmtOf b32).eps ∧
      288 / 100 ≤ (fmtOf b32).rnd (c * 2) ∧ (fmtOf b32).rnd (c * 2) ≤ 289 / 100 := by
  have hε := FloatFmt.eps_pos (F := fmtOf b32)
  have heps := eps_fmtOf b32
  norm_num at heps
  have hF := FloatFmt.wide_fmtOf b32
  have hτ : (fmtOf b32).tiny ≤ 1 / 1000 := (FloatFmt.tiny_le hF).trans (by norm_num)
  have h1 := FloatFmt.rnd_err (F := fmtOf b32) (c * 2)
  rw [abs_of_pos (by linarith : 0 < c * 2)] at h1
  have h2 : (fmtOf b32).eps * (c * 2 + (fmtOf b32).tiny) ≤ (fmtOf b32).eps * (29 / 10) := mul_le_mul_of_nonneg_left (by linarith) hε.le
  have h3 := abs_le.1 (h1.trans h2)
  have h4 := abs_le.1 hce
  have h5 : 2 / Real.log 2 = 2 * (1 / Real.log 2) := by ring
  refine ⟨rne_small ?_, ?_, by linarith, by linarith⟩
  · rw [abs_of_pos (by linarith)]; norm_num; linarith
  · rw [h5, abs_le]; constructor <;> linarith

theorem LibraryOk.tanh_run (h : LibraryOk ext fx b32 P calls g u w) {c k : ℝ} (hc : g ["LOG2_E"] = .f c) (hk : (fmtOf b32).rne (c * 2) = .f k) (x : RV) :
    calls "tanh" [x] = binIE (fmtOf b32) .div (binIE (fmtOf b32) .sub (calls "exp2" [binIE (fmtOf b32) .mul x (.f k)]) (.f 1))
      (binIE (fmtOf b32) .add (calls "exp2" [binIE (fmtOf b32) .mul x (.f k)]) (.f 1)) := by
  rw [show calls "tanh" [x] = _ from h.fn "tanh" (by decide +kernel) rfl [x]]
  simp only [Gen.tanh, ofFty_apply, List.map, bindParams]
  simp [hc, numIE_1 (FloatFmt.wide_fmtOf b32), numIE_2, hk]

/-- The exponential inside `tanh`. -/
theorem LibraryOk.tanh_exp (h : LibraryOk ext fx b32 P calls g u w) {k x : ℝ} (hk : |k - 2 / Real.log 2| ≤ 6 * (fmtOf b32).eps) (hk1 : 288 / 100 ≤ k) (hk2 : k ≤ 289 / 100)
    (hx : 2 * x / Real.log 2 ≤ (fmtOf b32).bias - 1 / 4) : ∃ E η : ℝ, calls "exp2" [(fmtOf b32).rne (x * k)] = .f E ∧ 0 ≤ E ∧ η ≤ 1 / 10 ∧
      |E - Real.exp (2 * x)| ≤ η * Real.exp (2 * x) + 2 * (fmtOf b32).tiny ∧
      η * Real.exp (2 * x) ≤ (exp2Bound b32 u w / 4 + 9 * (fmtOf b32).eps) * (Real.exp (2 * x) + 1) ^ 2 := by
  have hε := FloatFmt.eps_pos (F := fmtOf b32)
  have heps := eps_fmtOf b32
  norm_num at heps
  have hF := FloatFmt.wide_fmtOf b32
  have hτ0 := FloatFmt.tiny_pos (F := fmtOf b32)
  have hτ : (fmtOf b32).tiny ≤ 1 := (FloatFmt.tiny_le hF).trans (by norm_num)
  have hb := bias_le b32
  have hbe := bias_eps b32
  have hs := h.exp2_small
  have hT : 0 < Real.exp (2 * x) := Real.exp_pos _
  have hxk : |x * k - 2 * x / Real.log 2| ≤ 6 * (fmtOf b32).eps * |x| := by
    rw [show x * k - 2 * x / Real.log 2 = x * (k - 2 / Real.log 2) by ring, abs_mul, mul_comm]
    exact mul_le_mul_of_nonneg_right hk (abs_nonneg _)
  rcases le_total (2 * x / Real.log 2) (-(fmtOf b32).bias) with h1 | h1
  · have hl := Real.log_two_gt_d9
    have hl2 := Real.log_two_lt_d9
    norm_num at hl hl2
    have h2 : x * k ≤ -(fmtOf b32).bias + 1 / 2 := by
      have h3 : 2 * x ≤ -(fmtOf b32).bias * Real.log 2 := by rwa [div_le_iff₀ (by linarith)] at h1
      have hx0 : x < 0 := by nlinarith
      rw [abs_of_neg hx0] at hxk
      have h4 := (abs_le.1 hxk).2
      have h5 : 2 * x / Real.log 2 ≤ 2 * x := by
        rw [div_le_iff₀ (by linarith)]; nlinarith
      have h6 : x * k ≤ 2 * x / Real.log 2 * (1 - 3 * (fmtOf b32).eps) := by nlinarith
      have h7 : 2 * x / Real.log 2 * (1 - 3 * (fmtOf b32).eps) ≤ -(fmtOf b32).bias * (1 - 3 * (fmtOf b32).eps) := mul_le_mul_of_nonneg_right h1 (by linarith)
      linarith
    obtain ⟨E, hE, h3, h4⟩ := h.exp2.under h2 (by linarith) (repr_bias_half b32).2
    have h5 : Real.exp (2 * x) ≤ (fmtOf b32).tiny := by
      rw [← two_pow_div_log, FloatFmt.tiny, ← Real.rpow_intCast]
      refine Real.rpow_le_rpow_of_exponent_le (by norm_num) ?_
      push_cast; linarith
    refine ⟨E, 0, hE, h3, by norm_num, ?_, ?_⟩
    · rw [abs_le]; constructor <;> linarith
    · rw [zero_mul]
      have : 0 ≤ exp2Bound b32 u w / 4 + 9 * (fmtOf b32).eps := by linarith
      positivity
  · obtain ⟨ha, hsm⟩ := arg_small (b32 := b32) (a := 2 * x) (by rw [abs_le]; constructor <;> linarith)
    rw [abs_mul, abs_two] at ha hsm
    have hx0 := abs_nonneg x
    have hxk2 : |x * k| ≤ 289 / 100 * |x| := by
      rw [abs_mul, abs_of_pos (by linarith : 0 < k), mul_comm]; exact mul_le_mul_of_nonneg_right hk2 hx0
    have hrn := rne_small (b32 := b32) (x := x * k) (hxk2.trans (by norm_num; linarith))
    rw [hrn]
    have h4 := FloatFmt.rnd_err (F := fmtOf b32) (x * k)
    have h6 := mul_le_mul_of_nonneg_left (add_le_add hxk2 hτ) hε.le
    have h7 := abs_add_le ((fmtOf b32).rnd (x * k) - x * k) (x * k - 2 * x / Real.log 2)
    rw [sub_add_sub_cancel] at h7
    have hD : |(fmtOf b32).rnd (x * k) - 2 * x / Real.log 2| ≤ 9 * (fmtOf b32).eps * (|x| + 1) := by nlinarith
    obtain ⟨E, hE, h0, he⟩ := h.exp2.any hs.1 hs.2 (FloatFmt.rnd_repr _) hD (by nlinarith) hx
    rw [two_pow_div_log] at he
    refine ⟨E, _, hE, h0, ?_, he, ?_⟩
    · nlinarith
    · obtain ⟨t1, t2⟩ := tanh_slope x
      have k1 := mul_le_mul_of_nonneg_left t1 hε.le
      have k2 := mul_le_mul_of_nonneg_left t2 hs.1
      linarith

/-- **C76** Generated `tanh` in float arithmetic, up to where its exponential overflows: an absolute error, and never more than one. -/
theorem C76_tanh_partial (h : LibraryOk ext fx b32 P calls g u w) {x : ℝ} (hx : 2 * x / Real.log 2 ≤ (fmtOf b32).bias - 1 / 4) :
    ∃ y, calls "tanh" [.f x] = .f y ∧ |y| ≤ 1 ∧ |y - Real.tanh x| ≤ 3 / 5 * exp2Bound b32 u w + 25 * (fmtOf b32).eps := by
  obtain ⟨c, hc, -, hce, hc1, hc2⟩ := h.log2_e
  have hF := FloatFmt.wide_fmtOf b32
  have hε := FloatFmt.eps_pos (F := fmtOf b32)
  have heps := eps_fmtOf b32
  norm_num at heps
  have hτ0 := FloatFmt.tiny_pos (F := fmtOf b32)
  have hτ := tiny_eps b32
  obtain ⟨hk, hke, hk1, hk2⟩ := tanh_factor hce hc1 hc2
  obtain ⟨E, η, hE, hE0, hη, he, hκ⟩ := h.tanh_exp hke hk1 hk2 hx
  rw [h.tanh_run hc hk, binIE_mul, hE, binIE_sub, binIE_add]
  have hT : 0 < Real.exp (2 * x) := Real.exp_pos _
  have hmax : E + 1 ≤ 2 ^ (fmtOf b32).bias := by
    have h1 := (abs_le.1 he).2
    have h2 : η * Real.exp (2 * x) ≤ 1 / 10 * Real.exp (2 * x) := mul_le_mul_of_nonneg_right hη hT.le
    have h3 : Real.exp (2 * x) ≤ 6 / 7 * 2 ^ (fmtOf b32).bias := by
      rw [← two_pow_div_log]
      calc (2 : ℝ) ^ (2 * x / Real.log 2) ≤ 2 ^ (((fmtOf b32).bias : ℝ) - 1 / 4) := Real.rpow_le_rpow_of_exponent_le (by norm_num) (by linarith)
        _ ≤ _ := by
          rw [Real.rpow_sub (by norm_num), Real.rpow_natCast, div_eq_inv_mul]
          refine mul_le_mul_of_nonneg_right ?_ (by positivity)
          rw [inv_le_comm₀ (by positivity) (by norm_num), show (2 : ℝ) ^ ((1 : ℝ) / 4) = √(√2) by
            rw [Real.sqrt_eq_rpow, Real.sqrt_eq_rpow, ← Real.rpow_mul (by norm_num)]; norm_num, Real.le_sqrt' (by norm_num), Real.le_sqrt' (by norm_num)]
          norm_num
    have hb : (2 : ℝ) ^ 100 ≤ 2 ^ (fmtOf b32).bias := pow_le_pow_right₀ (by norm_num) (by cases b32 <;> decide)
    norm_num at hb
    linarith
  rw [FloatFmt.rne_f hF.ok (by rw [abs_le]; constructor <;> linarith), FloatFmt.rne_f hF.ok (by rw [abs_le]; constructor <;> linarith)]
  have hn := FloatFmt.rnd_err (F := fmtOf b32) (E - 1)
  have hd := FloatFmt.rnd_err (F := fmtOf b32) (E + 1)
  have hnd1 : (fmtOf b32).rnd (E - 1) ≤ (fmtOf b32).rnd (E + 1) := FloatFmt.rnd_mono (by linarith)
  have hnd2 : -(fmtOf b32).rnd (E - 1) ≤ (fmtOf b32).rnd (E + 1) := by rw [← FloatFmt.rnd_neg]; exact FloatFmt.rnd_mono (by linarith)
  have h1r : (fmtOf b32).Repr 1 := by simpa using FloatFmt.repr_int hF.ok (k := 1) (by rw [abs_one]; exact one_le_pow₀ (by norm_num))
  have hd0 : 1 ≤ (fmtOf b32).rnd (E + 1) := FloatFmt.le_rnd h1r (by linarith)
  have hq : |(fmtOf b32).rnd (E - 1) / (fmtOf b32).rnd (E + 1)| ≤ 1 := by
    rw [abs_div, abs_of_pos (by linarith : 0 < (fmtOf b32).rnd (E + 1)), div_le_one (by linarith), abs_le]
    constructor <;> linarith
  rw [binIE_div _ (by linarith), rne_small (hq.trans (by norm_num))]
  refine ⟨_, rfl, FloatFmt.abs_rnd_le h1r hq, ?_⟩
  have k1 := tanh_rounds hE0 hε (by linarith) (by linarith) hn hd (FloatFmt.rnd_err (F := fmtOf b32) _) hq
  have k2 := tanh_of_exp hT hτ0.le (by linarith) hη he hκ
  rw [tanh_frac] at k2
  have k3 := abs_add_le ((fmtOf b32).rnd ((fmtOf b32).rnd (E - 1) / (fmtOf b32).rnd (E + 1)) - (E - 1) / (E + 1)) ((E - 1) / (E + 1) - Real.tanh x)
  rw [sub_add_sub_cancel] at k3
  linarith [h.exp2_small.1]

/-- **C76** Beyond that `tanh` is a NaN, where it should be one; so it is at infinity. -/
theorem C76_tanh_wrong (h : LibraryOk ext fx b32 P calls g u w) : (∀ x, ((fmtOf b32).bias : ℝ) + 3 / 4 ≤ 2 * x / Real.log 2 → calls "tanh" [.f x] = .nan) ∧
    calls "tanh" [.inf false] = .nan ∧ calls "tanh" [.inf true] = .f (-1) := by
  obtain ⟨c, hc, -, hce, hc1, hc2⟩ := h.log2_e
  have hF := FloatFmt.wide_fmtOf b32
  obtain ⟨hk, hke, hk1, hk2⟩ := tanh_factor hce hc1 hc2
  have hε := FloatFmt.eps_pos (F := fmtOf b32)
  have hbe := bias_eps b32
  have hb := bias_le b32
  have heps := eps_fmtOf b32
  norm_num at heps
  have hi := h.exp2.inf true
  have hi2 := h.exp2.inf false
  simp only [if_true, if_false, Bool.false_eq_true] at hi hi2
  generalize (fmtOf b32).rnd (c * 2) = k at *
  have k0 : k ≠ 0 := by linarith
  have k1 : ¬ k < 0 := by linarith
  have k2 : 0 < k := by linarith
  refine ⟨fun x hx => ?_, ?_, ?_⟩
  · have hl := Real.log_two_gt_d9
    have hl2 := Real.log_two_lt_d9
    norm_num at hl hl2
    have hxk : |x * k - 2 * x / Real.log 2| ≤ 6 * (fmtOf b32).eps * |x| := by
      rw [show x * k - 2 * x / Real.log 2 = x * (k - 2 / Real.log 2) by ring, abs_mul, mul_comm]
      exact mul_le_mul_of_nonneg_right hke (abs_nonneg _)
    have h2 : (fmtOf b32).bias + 1 / 2 ≤ x * k := by
      have h3 : ((fmtOf b32).bias + 3 / 4) * Real.log 2 ≤ 2 * x := by rwa [le_div_iff₀ (by linarith)] at hx
      have hx0 : 0 < x := by nlinarith
      rw [abs_of_pos hx0] at hxk
      have h4 := (abs_le.1 hxk).1
      have h5 : 2 * x ≤ 2 * x / Real.log 2 := by
        rw [le_div_iff₀ (by linarith)]; nlinarith
      have h6 : 2 * x / Real.log 2 * (1 - 3 * (fmtOf b32).eps) ≤ x * k := by nlinarith
      have h7 : (((fmtOf b32).bias : ℝ) + 3 / 4) * (1 - 3 * (fmtOf b32).eps) ≤ 2 * x / Real.log 2 * (1 - 3 * (fmtOf b32).eps) := mul_le_mul_of_nonneg_right hx (by linarith)
      linarith
    rw [h.tanh_run hc hk, binIE_mul, h.exp2.over hF h2 (repr_bias_half b32).1]
    simp [binIE, addIE, divIE, unRV]
  · rw [h.tanh_run hc hk, show binIE (fmtOf b32) .mul (.inf false) (.f k) = .inf false by simp [binIE, mulIE, k0, k1, k2.le], hi2]
    simp [binIE, addIE, divIE, unRV]
  · rw [h.tanh_run hc hk, show binIE (fmtOf b32) .mul (.inf true) (.f k) = .inf true by simp [binIE, mulIE, k0, k1, k2.le], hi, binIE_sub, binIE_add,
      FloatFmt.rne_eighths hF (x := 0 - 1) (-8) (by norm_num) (by norm_num), FloatFmt.rne_eighths hF (x := 0 + 1) 8 (by norm_num) (by norm_num), binIE_div _ (by norm_num),
      FloatFmt.rne_eighths hF (-8) (by norm_num) (by norm_num)]
    norm_num

end
end Verif

import Verif.Props.IeeeLibrary

/-!
# C76: the functions built on `exp2` and `log2`, in float arithmetic
-/

namespace Verif
open RExpr

section
variable {F : FloatFmt} {calls : String → List RV → RV} {δ : ℝ}

theorem exp2_close {t s D y : ℝ} (hδ0 : 0 ≤ δ) (hδ1 : δ ≤ 3 / 100) (hD : |t - s| ≤ D) (hD1 : D ≤ 1 / 4) (hy : |y - (2 : ℝ) ^ t| ≤ δ * 2 ^ t) :
    |y - (2 : ℝ) ^ s| ≤ (δ + 2 * D) * 2 ^ s := by
  have hp : (0 : ℝ) < 2 ^ s := by positivity
  have h1 : (2 : ℝ) ^ t = 2 ^ s * 2 ^ (t - s) := by rw [← Real.rpow_add (by norm_num)]; congr 1; ring
  have h2 := two_pow_sub_one (t := t - s) (by linarith)
  have hD0 : 0 ≤ D := (abs_nonneg _).trans hD
  generalize (2 : ℝ) ^ (t - s) = z at *
  have h3 : |z - 1| ≤ 7 / 5 * D := by linarith
  have h4 : z ≤ 1 + 7 / 5 * D := by linarith [(abs_le.1 h3).2]
  rw [h1] at hy
  have h5 : y - 2 ^ s = (y - 2 ^ s * z) + 2 ^ s * (z - 1) := by ring
  rw [h5]
  refine (abs_add_le _ _).trans ?_
  rw [abs_mul, abs_of_pos hp]
  have h6 : δ * (2 ^ s * z) ≤ δ * (1 + 7 / 5 * D) * 2 ^ s := by
    have := mul_le_mul_of_nonneg_left (mul_le_mul_of_nonneg_left h4 hp.le) hδ0
    linarith
  have h7 := mul_le_mul_of_nonneg_left h3 hp.le
  have h8 : δ * (7 / 5 * D) ≤ 3 / 100 * (7 / 5 * D) := mul_le_mul_of_nonneg_right hδ1 (by linarith)
  have h9 : (δ * (1 + 7 / 5 * D) + 7 / 5 * D) * 2 ^ s ≤ (δ + 2 * D) * 2 ^ s := mul_le_mul_of_nonneg_right (by linarith) hp.le
  linarith

/-- `exp2` of a float near `s`, between the exponents of the type. -/
theorem Exp2IE.near (hE : Exp2IE F calls δ) (hδ0 : 0 ≤ δ) (hδ1 : δ ≤ 3 / 100) {t s D : ℝ} (ht : F.Repr t) (hD : |t - s| ≤ D) (hD1 : D ≤ 1 / 4)
    (h1 : 5 / 4 - (F.bias : ℝ) ≤ s) (h2 : s ≤ F.bias - 1 / 4) :
    ∃ y, calls "exp2" [.f t] = .f y ∧ 0 ≤ y ∧ |y - (2 : ℝ) ^ s| ≤ (δ + 2 * D) * 2 ^ s := by
  have := abs_le.1 hD
  obtain ⟨y, hy, he⟩ := hE.mid t ht (by linarith) (by linarith)
  refine ⟨y, hy, ?_, exp2_close hδ0 hδ1 hD hD1 he⟩
  have hp : (0 : ℝ) < 2 ^ t := by positivity
  have := (abs_le.1 he).1
  nlinarith

/-- `exp2` of a float near `s`, up to the largest exponent of the type. -/
theorem Exp2IE.any (hE : Exp2IE F calls δ) (hδ0 : 0 ≤ δ) (hδ1 : δ ≤ 3 / 100) {t s D : ℝ} (ht : F.Repr t) (hD : |t - s| ≤ D) (hD1 : D ≤ 1 / 4)
    (h2 : s ≤ F.bias - 1 / 4) :
    ∃ y, calls "exp2" [.f t] = .f y ∧ 0 ≤ y ∧ |y - (2 : ℝ) ^ s| ≤ (δ + 2 * D) * 2 ^ s + 2 * F.tiny := by
  have hab := abs_le.1 hD
  have hτ := FloatFmt.tiny_pos (F := F)
  have hp : (0 : ℝ) < 2 ^ s := by positivity
  have hD0 : 0 ≤ D := (abs_nonneg _).trans hD
  rcases lt_or_ge t (1 - F.bias) with h | h
  · obtain ⟨y, hy, hy0, hy1⟩ := hE.low t ht h
    refine ⟨y, hy, hy0, ?_⟩
    have h3 : (2 : ℝ) ^ s ≤ 2 * F.tiny := by
      calc (2 : ℝ) ^ s ≤ (2 : ℝ) ^ ((1 : ℝ) + (1 - F.bias)) := Real.rpow_le_rpow_of_exponent_le (by norm_num) (by linarith)
        _ = 2 * F.tiny := by
          rw [Real.rpow_add (by norm_num), Real.rpow_one, FloatFmt.tiny]
          congr 1
          rw [← Real.rpow_intCast]; push_cast; rfl
    have h4 : 0 ≤ (δ + 2 * D) * 2 ^ s := by positivity
    rw [abs_le]; constructor <;> linarith
  · obtain ⟨y, hy, he⟩ := hE.mid t ht h (by linarith)
    refine ⟨y, hy, ?_, (exp2_close hδ0 hδ1 hD hD1 he).trans (by linarith)⟩
    have hp : (0 : ℝ) < 2 ^ t := by positivity
    have := (abs_le.1 he).1
    nlinarith

/-- `exp2` of a rounded number above the largest exponent. -/
theorem Exp2IE.over (hF : F.Wide) (hE : Exp2IE F calls δ) {x : ℝ} (h : F.bias + 1 / 2 ≤ x) (hr : F.Repr (F.bias + 1 / 2)) : calls "exp2" [F.rne x] = .inf false := by
  have h1 : F.bias + 1 / 2 ≤ F.rnd x := FloatFmt.le_rnd hr h
  have h0 : ¬ x < 0 := by
    have : (0 : ℝ) ≤ F.bias := by positivity
    linarith
  unfold FloatFmt.rne
  split_ifs
  · exact hE.high _ (by linarith)
  · simpa [h0] using hE.inf false

/-- `exp2` of a rounded number far below the smallest exponent. -/
theorem Exp2IE.under (hE : Exp2IE F calls δ) {x : ℝ} (h : x ≤ -(F.bias : ℝ) + 1 / 2) (hb : (1 : ℝ) ≤ F.bias) (hr : F.Repr (-(F.bias : ℝ) + 1 / 2)) :
    ∃ y, calls "exp2" [F.rne x] = .f y ∧ 0 ≤ y ∧ y ≤ 3 / 2 * F.tiny := by
  have h1 : F.rnd x ≤ -(F.bias : ℝ) + 1 / 2 := FloatFmt.rnd_le hr h
  have h0 : x < 0 := by linarith
  unfold FloatFmt.rne
  split_ifs
  · exact hE.low _ (FloatFmt.rnd_repr _) (by linarith)
  · refine ⟨0, by simpa [h0] using hE.inf true, le_rfl, ?_⟩
    have := FloatFmt.tiny_pos (F := F)
    positivity

end

theorem bias_eps (b32 : Bool) : ((fmtOf b32).bias : ℝ) * (fmtOf b32).eps ≤ 1 / 1000 := by
  cases b32
  · rw [eps_f64, show (fmtOf false).bias = 1023 by decide]; norm_num
  · rw [FloatFmt.eps, show -((fmtOf true).mant : ℤ) - 1 = -24 by decide, show (fmtOf true).bias = 127 by decide]; norm_num

theorem repr_bias_half (b32 : Bool) : (fmtOf b32).Repr ((fmtOf b32).bias + 1 / 2) ∧ (fmtOf b32).Repr (-((fmtOf b32).bias : ℝ) + 1 / 2) := by
  have hF := FloatFmt.wide_fmtOf b32
  have h1 : ((fmtOf b32).bias : ℤ) ≤ 1023 := by cases b32 <;> decide
  constructor
  · have := FloatFmt.repr_eighths hF (8 * (fmtOf b32).bias + 4) (by rw [abs_le]; constructor <;> omega)
    convert this using 1
    push_cast; ring
  · have := FloatFmt.repr_eighths hF (-8 * (fmtOf b32).bias + 4) (by rw [abs_le]; constructor <;> omega)
    convert this using 1
    push_cast; ring

theorem inv_log_two : 7213 / 5000 < 1 / Real.log 2 ∧ 1 / Real.log 2 < 14427 / 10000 := by
  have h1 := Real.log_two_gt_d9
  have h2 := Real.log_two_lt_d9
  norm_num at h1 h2
  constructor
  · rw [lt_div_iff₀ (by linarith)]; linarith
  · rw [div_lt_iff₀ (by linarith)]; linarith

theorem logb_exp_one : Real.logb 2 (Real.exp 1) = 1 / Real.log 2 := by
  rw [Real.logb, Real.log_exp]

theorem two_pow_div_log (a : ℝ) : (2 : ℝ) ^ (a / Real.log 2) = Real.exp a := by
  rw [Real.rpow_def_of_pos (by norm_num)]
  congr 1
  have := Real.log_two_gt_d9
  field_simp

/-- The shipped library with literals of relative error `u` and absolute error `w`, and constants computed with enough digits. -/
structure LibraryOk (ext : BdExt) (fx : FloatExt) (b32 : Bool) (P : Gen.Parts) (calls : String → List RV → RV) (g : Name → RV) (u w : ℝ) : Prop
    extends Library ext fx b32 P calls g where
  sqrt : SqrtOk ext
  fuel : 20 ≤ ext.fuel
  lits : IeeeOk fx b32 u w
  hu : u ≤ 1 / 1000
  hw : w ≤ 1 / 1000

section
variable {ext : BdExt} {fx : FloatExt} {b32 : Bool} {P : Gen.Parts} {calls : String → List RV → RV} {g : Name → RV} {u w : ℝ}

theorem LibraryOk.exp2 (h : LibraryOk ext fx b32 P calls g u w) : Exp2IE (fmtOf b32) calls (exp2Bound b32 u w) :=
  h.toLibrary.exp2 (by have := h.fuel; omega) h.lits h.hu h.hw

theorem LibraryOk.log2 (h : LibraryOk ext fx b32 P calls g u w) : Log2IE (fmtOf b32) calls (log2Bound b32 u w) :=
  h.toLibrary.log2 (by have := h.fuel; omega) h.lits h.hu h.hw

theorem LibraryOk.exp2_small (h : LibraryOk ext fx b32 P calls g u w) : 0 ≤ exp2Bound b32 u w ∧ exp2Bound b32 u w ≤ 3 / 100 :=
  exp2Bound_small h.lits h.hu h.hw

theorem LibraryOk.log2_small (h : LibraryOk ext fx b32 P calls g u w) : 0 ≤ log2Bound b32 u w ∧ log2Bound b32 u w ≤ 3 / 100 :=
  log2Bound_small h.lits h.hu h.hw

/-- A constant of the library, within one and a half rounding errors of its value. -/
theorem LibraryOk.const (h : LibraryOk ext fx b32 P calls g u w) {name : String} {m : ℝ} (hm : (name, m) ∈ constMeaning) (hm4 : |m| ≤ 4) :
    ∃ c, g [name] = .f c ∧ (fmtOf b32).Repr c ∧ |c - m| ≤ (fmtOf b32).eps * (|m| + 1 / 500) := by
  obtain ⟨c, hc, hr, he⟩ := h.consts.get h.sqrt h.fuel (name := name) (m := m) hm hm4
  refine ⟨c, hc, hr, he.trans ?_⟩
  have hk := constErr_eps b32
  have hε := FloatFmt.eps_pos (F := fmtOf b32)
  have : (fmtOf b32).eps * (1 / 2 ^ 60) ≤ (fmtOf b32).eps * (1 / 1000) := mul_le_mul_of_nonneg_left (by norm_num) hε.le
  linarith

/-- The constant `LOG2_E`. -/
theorem LibraryOk.log2_e (h : LibraryOk ext fx b32 P calls g u w) :
    ∃ c, g ["LOG2_E"] = .f c ∧ (fmtOf b32).Repr c ∧ |c - 1 / Real.log 2| ≤ 3 / 2 * (fmtOf b32).eps ∧ 577 / 400 ≤ c ∧ c ≤ 3607 / 2500 := by
  obtain ⟨h1, h2⟩ := inv_log_two
  have hm := logb_exp_one
  obtain ⟨c, hc, hr, he⟩ := h.const (name := "LOG2_E") (m := Real.logb 2 (Real.exp 1)) (by simp [constMeaning]) (by rw [hm, abs_le]; constructor <;> linarith)
  rw [hm, abs_of_pos (by linarith : (0 : ℝ) < 1 / Real.log 2)] at he
  have hε := FloatFmt.eps_pos (F := fmtOf b32)
  have heps := eps_fmtOf b32
  norm_num at heps
  have h3 := mul_le_mul_of_nonneg_left (by linarith : 1 / Real.log 2 + 1 / 500 ≤ 3 / 2) hε.le
  have he' : |c - 1 / Real.log 2| ≤ 3 / 2 * (fmtOf b32).eps := by linarith
  have := abs_le.1 he'
  exact ⟨c, hc, hr, he', by linarith, by linarith⟩

/-- The argument that `exp` hands to `exp2`. -/
theorem exp_arg {a c : ℝ} (hc : |c - 1 / Real.log 2| ≤ 3 / 2 * (fmtOf b32).eps) (h1 : 577 / 400 ≤ c) (h2 : c ≤ 3607 / 2500) :
    |a * c - a / Real.log 2| ≤ 3 / 2 * (fmtOf b32).eps * |a| ∧
    |(fmtOf b32).rnd (a * c) - a / Real.log 2| ≤ 3 * (fmtOf b32).eps * (|a| + 1) := by
  have hε := FloatFmt.eps_pos (F := fmtOf b32)
  have hF := FloatFmt.wide_fmtOf b32
  have hτ : (fmtOf b32).tiny ≤ 1 := (FloatFmt.tiny_le hF).trans (by norm_num)
  have h3 : |a * c - a / Real.log 2| ≤ 3 / 2 * (fmtOf b32).eps * |a| := by
    rw [show a * c - a / Real.log 2 = a * (c - 1 / Real.log 2) by ring, abs_mul]
    have := mul_le_mul_of_nonneg_left hc (abs_nonneg a)
    linarith
  have ha := abs_nonneg a
  refine ⟨h3, ?_⟩
  have h4 := FloatFmt.rnd_err (F := fmtOf b32) (a * c)
  have h5 : |a * c| ≤ 3 / 2 * |a| := by
    rw [abs_mul, abs_of_pos (by linarith : 0 < c), mul_comm]
    exact mul_le_mul_of_nonneg_right (by linarith) ha
  have h6 := mul_le_mul_of_nonneg_left (add_le_add h5 hτ) hε.le
  have h7 := abs_add_le ((fmtOf b32).rnd (a * c) - a * c) (a * c - a / Real.log 2)
  rw [sub_add_sub_cancel] at h7
  nlinarith

/-- What `exp` runs. -/
theorem LibraryOk.exp_run (h : LibraryOk ext fx b32 P calls g u w) {c : ℝ} (hc : g ["LOG2_E"] = .f c) (a : ℝ) :
    calls "exp" [.f a] = calls "exp2" [(fmtOf b32).rne (a * c)] := by
  rw [show calls "exp" [.f a] = _ from h.fn "exp" (by decide +kernel) rfl [.f a]]
  simp only [Gen.exp, ofFty_apply, List.map, bindParams]
  simp [hc]

/-- Numbers up to `2 ^ 100` do not overflow. -/
theorem rne_small {x : ℝ} (h : |x| ≤ 2 ^ 100) : (fmtOf b32).rne x = .f ((fmtOf b32).rnd x) := by
  have hF := FloatFmt.wide_fmtOf b32
  have hb : 100 ≤ (fmtOf b32).bias := by cases b32 <;> decide
  exact FloatFmt.rne_f hF.ok (h.trans (pow_le_pow_right₀ (by norm_num) hb))

theorem bias_le (b32 : Bool) : ((fmtOf b32).bias : ℝ) ≤ 1023 ∧ (127 : ℝ) ≤ (fmtOf b32).bias := by
  constructor
  · exact_mod_cast (by cases b32 <;> decide : (fmtOf b32).bias ≤ 1023)
  · exact_mod_cast (by cases b32 <;> decide : 127 ≤ (fmtOf b32).bias)

theorem arg_small {a : ℝ} (h : |a / Real.log 2| ≤ (fmtOf b32).bias + 2) : |a| ≤ 1025 ∧ 3 * (fmtOf b32).eps * (|a| + 1) ≤ 1 / 100 := by
  have hb := bias_eps b32
  have hb1 := (bias_le b32).1
  have hε := FloatFmt.eps_pos (F := fmtOf b32)
  have heps := eps_fmtOf b32
  norm_num at heps
  have h1 := Real.log_two_gt_d9
  have h2 := Real.log_two_lt_d9
  norm_num at h1 h2
  rw [abs_div, abs_of_pos (by linarith : 0 < Real.log 2), div_le_iff₀ (by linarith)] at h
  have h0 : (0 : ℝ) ≤ (fmtOf b32).bias := by positivity
  have h3 : |a| ≤ (fmtOf b32).bias + 2 := by nlinarith
  have h4 := mul_le_mul_of_nonneg_right h3 hε.le
  exact ⟨by linarith, by linarith⟩

theorem arg_rne {a c : ℝ} (h : |a| ≤ 1025) (h1 : 577 / 400 ≤ c) (h2 : c ≤ 3607 / 2500) : |a * c| ≤ 2000 := by
  rw [abs_mul, abs_of_pos (by linarith : 0 < c)]
  have := abs_nonneg a
  nlinarith

/-- **C76** Generated `exp` in float arithmetic, for every argument whose exponential lies between the normal numbers and just below half of the largest. -/
theorem C76_exp (h : LibraryOk ext fx b32 P calls g u w) {a : ℝ}
    (h1 : 5 / 4 - ((fmtOf b32).bias : ℝ) ≤ a / Real.log 2) (h2 : a / Real.log 2 ≤ (fmtOf b32).bias - 1 / 4) :
    ∃ y, calls "exp" [.f a] = .f y ∧ |y - Real.exp a| ≤ (exp2Bound b32 u w + 6 * (fmtOf b32).eps * (|a| + 1)) * Real.exp a := by
  obtain ⟨c, hc, -, hce, hc1, hc2⟩ := h.log2_e
  rw [h.exp_run hc]
  have hd := exp_arg (a := a) hce hc1 hc2
  have hb : |a / Real.log 2| ≤ (fmtOf b32).bias + 2 := by rw [abs_le]; constructor <;> linarith
  obtain ⟨ha, hsm⟩ := arg_small (b32 := b32) (a := a) hb
  have hrn := rne_small (b32 := b32) (x := a * c) ((arg_rne ha hc1 hc2).trans (by norm_num))
  rw [hrn]
  obtain ⟨y, hy, -, he⟩ := h.exp2.near h.exp2_small.1 h.exp2_small.2 (FloatFmt.rnd_repr _) hd.2 (by linarith) h1 h2
  rw [two_pow_div_log] at he
  exact ⟨y, hy, by rw [show exp2Bound b32 u w + 6 * (fmtOf b32).eps * (|a| + 1) = exp2Bound b32 u w + 2 * (3 * (fmtOf b32).eps * (|a| + 1)) by ring]; exact he⟩

/-- The product with `LOG2_E` keeps large arguments large. -/
theorem arg_far {a c : ℝ} (hc : |c - 1 / Real.log 2| ≤ 3 / 2 * (fmtOf b32).eps) :
    (((fmtOf b32).bias : ℝ) + 3 / 4 ≤ a / Real.log 2 → (fmtOf b32).bias + 5 / 8 ≤ a * c) ∧
    (a / Real.log 2 ≤ 1 / 4 - ((fmtOf b32).bias : ℝ) → a * c ≤ -((fmtOf b32).bias : ℝ) + 1 / 2) := by
  have hl := inv_log_two
  have hε := FloatFmt.eps_pos (F := fmtOf b32)
  have heps := eps_fmtOf b32
  norm_num at heps
  have hbe := bias_eps b32
  have hb := bias_le b32
  have hdiv : a / Real.log 2 = a * (1 / Real.log 2) := div_eq_mul_one_div _ _
  rw [hdiv]
  clear hdiv
  generalize 1 / Real.log 2 = l at *
  have hk : |c - l| ≤ 3 / 2 * (fmtOf b32).eps * l := hc.trans (by nlinarith)
  have hc' := abs_le.1 hk
  have h2 : l * (1 - 3 / 2 * (fmtOf b32).eps) ≤ c := by linarith
  have h3 : c ≥ 0 := by nlinarith
  constructor
  · intro h
    have ha : 0 < a := by nlinarith
    have := mul_le_mul_of_nonneg_left h2 ha.le
    have h4 : 0 ≤ 1 - 3 / 2 * (fmtOf b32).eps := by linarith
    have := mul_le_mul_of_nonneg_right h h4
    nlinarith
  · intro h
    have ha : a < 0 := by nlinarith
    have := mul_le_mul_of_nonneg_left h2 (by linarith : 0 ≤ -a)
    have h4 : 0 ≤ 1 - 3 / 2 * (fmtOf b32).eps := by linarith
    have := mul_le_mul_of_nonneg_right h h4
    nlinarith

/-- **C76** Large arguments of `exp` give infinity, some of them although the exponential is less than the largest float. -/
theorem C76_exp_high (h : LibraryOk ext fx b32 P calls g u w) {a : ℝ} (h1 : ((fmtOf b32).bias : ℝ) + 3 / 4 ≤ a / Real.log 2) :
    calls "exp" [.f a] = .inf false := by
  obtain ⟨c, hc, -, hce, -, -⟩ := h.log2_e
  rw [h.exp_run hc]
  exact h.exp2.over (FloatFmt.wide_fmtOf b32) (by linarith [(arg_far hce).1 h1]) (repr_bias_half b32).1

/-- **C76** Very negative arguments of `exp` give zero or next to it. -/
theorem C76_exp_low (h : LibraryOk ext fx b32 P calls g u w) {a : ℝ} (h1 : a / Real.log 2 ≤ 5 / 4 - ((fmtOf b32).bias : ℝ)) :
    ∃ y, calls "exp" [.f a] = .f y ∧ 0 ≤ y ∧ y ≤ 5 / 2 * (fmtOf b32).tiny := by
  obtain ⟨c, hc, -, hce, hc1, hc2⟩ := h.log2_e
  rw [h.exp_run hc]
  have hτ := FloatFmt.tiny_pos (F := fmtOf b32)
  have hb := bias_le b32
  rcases le_total (a / Real.log 2) (1 / 4 - ((fmtOf b32).bias : ℝ)) with h2 | h2
  · obtain ⟨y, hy, h3, h4⟩ := h.exp2.under ((arg_far hce).2 h2) (by linarith) (repr_bias_half b32).2
    exact ⟨y, hy, h3, by linarith⟩
  · have hd := exp_arg (a := a) hce hc1 hc2
    have hb' : |a / Real.log 2| ≤ (fmtOf b32).bias + 2 := by rw [abs_le]; constructor <;> linarith
    obtain ⟨ha, hsm⟩ := arg_small (b32 := b32) (a := a) hb'
    have hrn := rne_small (b32 := b32) (x := a * c) ((arg_rne ha hc1 hc2).trans (by norm_num))
    rw [hrn]
    have hab := abs_le.1 (hd.2.trans hsm)
    rcases lt_or_ge ((fmtOf b32).rnd (a * c)) (1 - (fmtOf b32).bias) with h3 | h3
    · obtain ⟨y, hy, h4, h5⟩ := h.exp2.low _ (FloatFmt.rnd_repr _) h3
      exact ⟨y, hy, h4, by linarith⟩
    · obtain ⟨y, hy, he⟩ := h.exp2.mid _ (FloatFmt.rnd_repr _) h3 (by linarith)
      have hp : (2 : ℝ) ^ (fmtOf b32).rnd (a * c) ≤ 2 * (fmtOf b32).tiny := by
        calc (2 : ℝ) ^ (fmtOf b32).rnd (a * c) ≤ (2 : ℝ) ^ ((1 : ℝ) + (1 - (fmtOf b32).bias)) := Real.rpow_le_rpow_of_exponent_le (by norm_num) (by linarith)
          _ = 2 * (fmtOf b32).tiny := by
            rw [Real.rpow_add (by norm_num), Real.rpow_one, FloatFmt.tiny]
            congr 1
            rw [← Real.rpow_intCast]; push_cast; rfl
      have hp0 : (0 : ℝ) < 2 ^ (fmtOf b32).rnd (a * c) := by positivity
      have hs := h.exp2_small
      have he' := abs_le.1 he
      refine ⟨y, hy, ?_, ?_⟩
      · nlinarith
      · nlinarith

/-- **C76** `exp` of the infinities. -/
theorem C76_exp_inf (h : LibraryOk ext fx b32 P calls g u w) (s : Bool) : calls "exp" [.inf s] = if s then .f 0 else .inf false := by
  obtain ⟨c, hc, -, hce, hc1, hc2⟩ := h.log2_e
  rw [show calls "exp" [.inf s] = _ from h.fn "exp" (by decide +kernel) rfl [.inf s], ← h.exp2.inf]
  simp only [Gen.exp, ofFty_apply, List.map, bindParams]
  have h1 : c ≠ 0 := by intro h0; rw [h0] at hc1; norm_num at hc1
  have h2 : ¬ c < 0 := by linarith
  simp [hc, binIE, mulIE, h1, h2]

/-! ## Logarithms -/

theorem logb_range {a : ℝ} (h1 : (fmtOf b32).tiny ≤ a) (h2 : a < 2 ^ ((fmtOf b32).bias + 1)) : |Real.logb 2 a| ≤ (fmtOf b32).bias + 1 := by
  have h0 : 0 < a := lt_of_lt_of_le (FloatFmt.tiny_pos (F := fmtOf b32)) h1
  rw [abs_le]
  constructor
  · rw [Real.le_logb_iff_rpow_le (by norm_num) h0]
    refine le_trans ?_ h1
    rw [FloatFmt.tiny, ← Real.rpow_intCast]
    refine Real.rpow_le_rpow_of_exponent_le (by norm_num) ?_
    push_cast; linarith
  · rw [Real.logb_le_iff_le_rpow (by norm_num) h0]
    refine h2.le.trans (le_of_eq ?_)
    rw [← Real.rpow_natCast]; push_cast; rfl

theorem log_mul {l y c m δ ε τ r : ℝ} (hε : 0 < ε) (hε1 : ε ≤ 1 / 10000) (hτ : τ ≤ 1) (hδ0 : 0 ≤ δ) (hδ1 : δ ≤ 3 / 100) (hm1 : 1 / 5 ≤ m) (hm2 : m ≤ 3 / 4)
    (hc : |c - m| ≤ ε * (m + 1 / 500)) (hy : |y - l| ≤ δ + ε * |l|) (hr : |r - y * c| ≤ ε * (|y * c| + τ)) :
    |y * c - l * m| ≤ 4 / 5 * δ + 3 * ε * |l * m| ∧ |r - l * m| ≤ 4 / 5 * δ + 4 * ε * (|l * m| + 1) := by
  have hm0 : 0 < m := by linarith
  have hlm : |l * m| = |l| * m := by rw [abs_mul, abs_of_pos hm0]
  have hl0 := abs_nonneg l
  have hcm := abs_le.1 hc
  have hc0 : 0 < c := by nlinarith
  have hc1 : c ≤ m * (1 + 2 * ε) := by nlinarith
  have h1 : |y * c - l * m| ≤ (δ + ε * |l|) * c + |l| * (ε * (m + 1 / 500)) := by
    rw [show y * c - l * m = (y - l) * c + l * (c - m) by ring]
    refine (abs_add_le _ _).trans (add_le_add ?_ ?_)
    · rw [abs_mul, abs_of_pos hc0]; exact mul_le_mul_of_nonneg_right hy hc0.le
    · rw [abs_mul]; exact mul_le_mul_of_nonneg_left hc hl0
  have h2 : (δ + ε * |l|) * c ≤ (δ + ε * |l|) * (m * (1 + 2 * ε)) := mul_le_mul_of_nonneg_left hc1 (by positivity)
  have h3 : m * (1 + 2 * ε) ≤ m * (1001 / 1000) := mul_le_mul_of_nonneg_left (by linarith) hm0.le
  have h4 : (δ + ε * |l|) * (m * (1 + 2 * ε)) ≤ (δ + ε * |l|) * (m * (1001 / 1000)) := mul_le_mul_of_nonneg_left h3 (by positivity)
  have h5 : δ * m ≤ δ * (3 / 4) := mul_le_mul_of_nonneg_left hm2 hδ0
  have h6 : |l| * (ε * (m + 1 / 500)) ≤ 101 / 100 * (ε * (|l| * m)) := by
    have : |l| * ε * (m + 1 / 500) ≤ |l| * ε * (101 / 100 * m) := mul_le_mul_of_nonneg_left (by linarith) (by positivity)
    linarith
  have hp : 0 ≤ ε * (|l| * m) := by positivity
  have h7 : |y * c - l * m| ≤ 77 / 100 * δ + 203 / 100 * (ε * (|l| * m)) := by nlinarith
  rw [hlm]
  refine ⟨by nlinarith, ?_⟩
  have h8 : |y * c| ≤ |l| * m + |y * c - l * m| := by
    have := abs_sub_abs_le_abs_sub (y * c) (l * m)
    rw [hlm] at this; linarith
  have h9 := abs_add_le (r - y * c) (y * c - l * m)
  rw [sub_add_sub_cancel] at h9
  have hp2 : ε * (|l| * m) ≤ 1 / 10000 * (|l| * m) := mul_le_mul_of_nonneg_right hε1 (by positivity)
  have h10 : |y * c| + τ ≤ 101 / 100 * (|l| * m) + 103 / 100 := by linarith
  have h11 := mul_le_mul_of_nonneg_left h10 hε.le
  nlinarith

/-- Multiplying the logarithm by a constant of the library. -/
theorem LibraryOk.log_const (h : LibraryOk ext fx b32 P calls g u w) {m c a : ℝ} (hm1 : 1 / 5 ≤ m) (hm2 : m ≤ 3 / 4) (hc : |c - m| ≤ (fmtOf b32).eps * (|m| + 1 / 500))
    (ha : (fmtOf b32).Repr a) (h1 : (fmtOf b32).tiny ≤ a) (h2 : a < 2 ^ ((fmtOf b32).bias + 1)) :
    ∃ y, binIE (fmtOf b32) .mul (calls "log2" [.f a]) (.f c) = .f y ∧ (fmtOf b32).Repr y ∧
      |y - Real.logb 2 a * m| ≤ 4 / 5 * log2Bound b32 u w + 4 * (fmtOf b32).eps * (|Real.logb 2 a * m| + 1) := by
  have hF := FloatFmt.wide_fmtOf b32
  have hε := FloatFmt.eps_pos (F := fmtOf b32)
  have heps := eps_fmtOf b32
  norm_num at heps
  have hb := bias_le b32
  obtain ⟨y, hy, -, he⟩ := h.log2.val a ha h1 h2
  rw [hy, binIE_mul]
  rw [abs_of_pos (by linarith : 0 < m)] at hc
  obtain ⟨hx, hr⟩ := log_mul hε (by linarith) ((FloatFmt.tiny_le hF).trans (by norm_num)) h.log2_small.1 h.log2_small.2 hm1 hm2 hc he (FloatFmt.rnd_err (F := fmtOf b32) (y * c))
  refine ⟨_, rne_small ?_, FloatFmt.rnd_repr _, hr⟩
  have hla := logb_range h1 h2
  have h3 := abs_sub_abs_le_abs_sub (y * c) (Real.logb 2 a * m)
  have h4 : |Real.logb 2 a * m| ≤ |Real.logb 2 a| := by
    rw [abs_mul, abs_of_pos (by linarith : 0 < m)]
    have := abs_nonneg (Real.logb 2 a)
    nlinarith
  have h5 := h.log2_small.2
  have h6 : (fmtOf b32).eps * |Real.logb 2 a * m| ≤ 1 / 16777216 * 1024 := mul_le_mul heps (by linarith) (abs_nonneg _) (by norm_num)
  refine le_trans ?_ (by norm_num : (2000 : ℝ) ≤ 2 ^ 100)
  linarith

/-- A logarithm `log x * m` computed from `log2`: of every normal number with an error `δ` beside four roundings; smaller numbers give minus infinity,
negative ones a NaN, and infinity a finite number. -/
structure LogIE (F : FloatFmt) (calls : String → List RV → RV) (name : String) (m δ : ℝ) : Prop where
  val : ∀ a, F.Repr a → F.tiny ≤ a → a < 2 ^ (F.bias + 1) →
    ∃ y, calls name [.f a] = .f y ∧ F.Repr y ∧ |y - Real.logb 2 a * m| ≤ δ + 4 * F.eps * (|Real.logb 2 a * m| + 1)
  small : ∀ a, a < F.tiny → calls name [.f a] = if a < 0 then .nan else .inf true
  inf : ∃ y, calls name [.inf false] = .f y ∧ |y - (F.bias + 1) * m| ≤ δ + 4 * F.eps * ((F.bias + 1) * m + 1)
  ninf : calls name [.inf true] = .nan

theorem LibraryOk.log_of (h : LibraryOk ext fx b32 P calls g u w) {name : String} {m c : ℝ} (hm1 : 1 / 5 ≤ m) (hm2 : m ≤ 3 / 4) (hc : |c - m| ≤ (fmtOf b32).eps * (|m| + 1 / 500))
    (hn : ∀ x, calls name [x] = binIE (fmtOf b32) .mul (calls "log2" [x]) (.f c)) : LogIE (fmtOf b32) calls name m (4 / 5 * log2Bound b32 u w) := by
  have hF := FloatFmt.wide_fmtOf b32
  have hε := FloatFmt.eps_pos (F := fmtOf b32)
  have heps := eps_fmtOf b32
  norm_num at heps
  have hb := bias_le b32
  have hc' := abs_le.1 hc
  rw [abs_of_pos (by linarith : 0 < m)] at hc'
  have hc0 : 0 < c := by nlinarith
  refine ⟨fun a ha h1 h2 => ?_, fun a ha => ?_, ?_, ?_⟩
  · rw [hn]; exact h.log_const hm1 hm2 hc ha h1 h2
  · rw [hn, h.log2.small a ha]
    split
    · simp [binIE, mulIE]
    · simp [binIE, mulIE, hc0.ne', hc0.le]
  · obtain ⟨y, hy, -, he⟩ := h.log2.inf
    rw [hn, hy, binIE_mul]
    rw [abs_of_pos (by linarith : 0 < m)] at hc
    have hbm : |((fmtOf b32).bias : ℝ) + 1| = (fmtOf b32).bias + 1 := abs_of_nonneg (by linarith)
    rw [← hbm] at he
    obtain ⟨hx, hr⟩ := log_mul hε (by linarith) ((FloatFmt.tiny_le hF).trans (by norm_num)) h.log2_small.1 h.log2_small.2 hm1 hm2 hc
      (by rw [hbm] at he ⊢; exact he) (FloatFmt.rnd_err (F := fmtOf b32) (y * c))
    have hbm2 : |((fmtOf b32).bias + 1) * m| = ((fmtOf b32).bias + 1) * m := abs_of_nonneg (by nlinarith)
    rw [hbm2] at hr hx
    refine ⟨_, rne_small ?_, hr⟩
    have h3 := abs_sub_abs_le_abs_sub (y * c) (((fmtOf b32).bias + 1) * m)
    rw [hbm2] at h3
    have h4 : ((fmtOf b32).bias + 1) * m ≤ 1024 := by nlinarith
    have h5 := h.log2_small.2
    have h6 : (fmtOf b32).eps * (((fmtOf b32).bias + 1) * m) ≤ 1 / 16777216 * 1024 := mul_le_mul heps (by linarith) (by nlinarith) (by norm_num)
    refine le_trans ?_ (by norm_num : (2000 : ℝ) ≤ 2 ^ 100)
    linarith
  · rw [hn, h.log2.ninf]; simp [binIE, mulIE]

theorem logb_mul_log (a : ℝ) : Real.logb 2 a * Real.log 2 = Real.log a := by
  have := Real.log_two_gt_d9
  rw [Real.logb]; field_simp

theorem logb_mul_log10 (a : ℝ) : Real.logb 2 a * (1 / Real.logb 2 10) = Real.logb 10 a := by
  have h1 := Real.log_two_gt_d9
  have h2 : 0 < Real.log 10 := Real.log_pos (by norm_num)
  have h3 : Real.log 2 ≠ 0 := by norm_num at h1; linarith
  rw [Real.logb, Real.logb, Real.logb]; field_simp

/-- `ln` of the library. -/
theorem LibraryOk.ln (h : LibraryOk ext fx b32 P calls g u w) : LogIE (fmtOf b32) calls "ln" (Real.log 2) (4 / 5 * log2Bound b32 u w) := by
  have h1 := Real.log_two_gt_d9
  have h2 := Real.log_two_lt_d9
  norm_num at h1 h2
  have hm : 1 / Real.logb 2 (Real.exp 1) = Real.log 2 := by rw [logb_exp_one, one_div_one_div]
  obtain ⟨c, hc, -, he⟩ := h.const (name := "RECIP_LOG2_E") (m := Real.log 2) (by rw [← hm]; simp [constMeaning]) (by rw [abs_le]; constructor <;> linarith)
  refine h.log_of (by linarith) (by linarith) he fun x => ?_
  rw [show calls "ln" [x] = _ from h.fn "ln" (by decide +kernel) rfl [x]]
  simp only [Gen.ln, ofFty_apply, List.map, bindParams]
  simp [hc]

theorem logb_10_bounds : 3 ≤ Real.logb 2 10 ∧ Real.logb 2 10 ≤ 4 := by
  constructor
  · rw [Real.le_logb_iff_rpow_le (by norm_num) (by norm_num)]; norm_num
  · rw [Real.logb_le_iff_le_rpow (by norm_num) (by norm_num)]; norm_num

/-- `log10` of the library. -/
theorem LibraryOk.log10 (h : LibraryOk ext fx b32 P calls g u w) : LogIE (fmtOf b32) calls "log10" (1 / Real.logb 2 10) (4 / 5 * log2Bound b32 u w) := by
  obtain ⟨h1, h2⟩ := logb_10_bounds
  have h3 : 1 / 4 ≤ 1 / Real.logb 2 10 := one_div_le_one_div_of_le (by linarith) h2
  have h4 : 1 / Real.logb 2 10 ≤ 1 / 3 := one_div_le_one_div_of_le (by linarith) h1
  obtain ⟨c, hc, -, he⟩ := h.const (name := "RECIP_LOG2_10") (m := 1 / Real.logb 2 10) (by simp [constMeaning]) (by rw [abs_le]; constructor <;> linarith)
  refine h.log_of (by linarith) (by linarith) he fun x => ?_
  rw [show calls "log10" [x] = _ from h.fn "log10" (by decide +kernel) rfl [x]]
  simp only [Gen.log10, ofFty_apply, List.map, bindParams]
  simp [hc]

/-- **C76** Generated `ln` in float arithmetic, of every normal number. -/
theorem C76_ln (h : LibraryOk ext fx b32 P calls g u w) {a : ℝ} (ha : (fmtOf b32).Repr a) (h1 : (fmtOf b32).tiny ≤ a) (h2 : a < 2 ^ ((fmtOf b32).bias + 1)) :
    ∃ y, calls "ln" [.f a] = .f y ∧ |y - Real.log a| ≤ 4 / 5 * log2Bound b32 u w + 4 * (fmtOf b32).eps * (|Real.log a| + 1) := by
  obtain ⟨y, hy, -, he⟩ := h.ln.val a ha h1 h2
  rw [logb_mul_log] at he
  exact ⟨y, hy, he⟩

/-- **C76** Generated `log10` in float arithmetic, of every normal number. -/
theorem C76_log10 (h : LibraryOk ext fx b32 P calls g u w) {a : ℝ} (ha : (fmtOf b32).Repr a) (h1 : (fmtOf b32).tiny ≤ a) (h2 : a < 2 ^ ((fmtOf b32).bias + 1)) :
    ∃ y, calls "log10" [.f a] = .f y ∧ |y - Real.logb 10 a| ≤ 4 / 5 * log2Bound b32 u w + 4 * (fmtOf b32).eps * (|Real.logb 10 a| + 1) := by
  obtain ⟨y, hy, -, he⟩ := h.log10.val a ha h1 h2
  rw [logb_mul_log10] at he
  exact ⟨y, hy, he⟩

/-- **C76** Logarithms of zero and the subnormal numbers are minus infinity, those of negative numbers NaN, and that of infinity is finite. -/
theorem C76_logs_edges (h : LibraryOk ext fx b32 P calls g u w) {name : String} (hn : name = "ln" ∨ name = "log10") :
    (∀ a, 0 ≤ a → a < (fmtOf b32).tiny → calls name [.f a] = .inf true) ∧ (∀ a, a < 0 → calls name [.f a] = .nan) ∧ calls name [.inf true] = .nan ∧
    ∃ y : ℝ, calls name [.inf false] = .f y ∧ y < 1000 := by
  have hτ := FloatFmt.tiny_pos (F := fmtOf b32)
  have key : ∀ m, 1 / 5 ≤ m → m ≤ 3 / 4 → LogIE (fmtOf b32) calls name m (4 / 5 * log2Bound b32 u w) → _ := fun m hm1 hm2 hl =>
    (⟨fun a h0 h1 => by rw [hl.small a h1, if_neg (by linarith)], fun a h0 => by rw [hl.small a (by linarith), if_pos h0], hl.ninf, by
      obtain ⟨y, hy, he⟩ := hl.inf
      refine ⟨y, hy, ?_⟩
      have h1 := (abs_le.1 he).2
      have h2 := h.log2_small.2
      have hb := bias_le b32
      have hε := FloatFmt.eps_pos (F := fmtOf b32)
      have heps := eps_fmtOf b32
      norm_num at heps
      have h4 : ((fmtOf b32).bias + 1) * m ≤ 1024 * (3 / 4) := mul_le_mul (by linarith) hm2 (by linarith) (by norm_num)
      have h6 : (fmtOf b32).eps * (((fmtOf b32).bias + 1) * m + 1) ≤ 1 / 16777216 * 1024 := mul_le_mul heps (by linarith) (by nlinarith) (by norm_num)
      linarith⟩ :
    (∀ a, 0 ≤ a → a < (fmtOf b32).tiny → calls name [.f a] = .inf true) ∧ (∀ a, a < 0 → calls name [.f a] = .nan) ∧ calls name [.inf true] = .nan ∧
    ∃ y : ℝ, calls name [.inf false] = .f y ∧ y < 1000)
  rcases hn with rfl | rfl
  · have h1 := Real.log_two_gt_d9
    have h2 := Real.log_two_lt_d9
    norm_num at h1 h2
    exact key _ (by linarith) (by linarith) h.ln
  · obtain ⟨h1, h2⟩ := logb_10_bounds
    have h3 : 1 / 4 ≤ 1 / Real.logb 2 10 := one_div_le_one_div_of_le (by linarith) h2
    have h4 : 1 / Real.logb 2 10 ≤ 1 / 3 := one_div_le_one_div_of_le (by linarith) h1
    exact key _ (by linarith) (by linarith) h.log10

theorem div_close {y₁ y₂ l₁ l₂ δ ε : ℝ} (hε : 0 < ε) (hε1 : ε ≤ 1 / 10000) (hδ0 : 0 ≤ δ) (hδ1 : δ ≤ 3 / 100) (h2 : 1 / 4 ≤ |l₂|)
    (h3 : |y₁ - l₁| ≤ δ + ε * |l₁|) (h4 : |y₂ - l₂| ≤ δ + ε * |l₂|) :
    y₂ ≠ 0 ∧ |y₁ / y₂ - l₁ / l₂| ≤ 6 / 5 * (δ / |l₂|) * (|l₁ / l₂| + 1) + 5 / 2 * ε * |l₁ / l₂| := by
  have hl2 : 0 < |l₂| := by linarith
  have hl0 : l₂ ≠ 0 := abs_pos.1 hl2
  have h5 : 7 / 8 * |l₂| ≤ |y₂| := by
    have := abs_sub_abs_le_abs_sub l₂ y₂
    rw [abs_sub_comm] at this
    nlinarith
  have hy2 : 0 < |y₂| := by linarith
  have hy0 : y₂ ≠ 0 := abs_pos.1 hy2
  refine ⟨hy0, ?_⟩
  have h6 : y₁ / y₂ - l₁ / l₂ = ((y₁ - l₁) - l₁ / l₂ * (y₂ - l₂)) / y₂ := by field_simp; ring
  obtain ⟨q, hq⟩ : ∃ q, q = l₁ / l₂ := ⟨_, rfl⟩
  have hl1 : |l₁| = |q| * |l₂| := by rw [← abs_mul, hq, div_mul_cancel₀ _ hl0]
  rw [h6, ← hq, abs_div]
  have hq0 := abs_nonneg q
  have h7 : |(y₁ - l₁) - q * (y₂ - l₂)| ≤ (δ + ε * (|q| * |l₂|)) + |q| * (δ + ε * |l₂|) := by
    refine (abs_sub _ _).trans (add_le_add (by rw [← hl1]; exact h3) ?_)
    rw [abs_mul]; exact mul_le_mul_of_nonneg_left h4 hq0
  rw [div_le_iff₀ hy2]
  refine h7.trans ?_
  have hd : δ = δ / |l₂| * |l₂| := by field_simp
  have hd0 : 0 ≤ δ / |l₂| := by positivity
  generalize δ / |l₂| = d at *
  have h8 : 0 ≤ 6 / 5 * d * (|q| + 1) + 5 / 2 * ε * |q| := by positivity
  have h9 := mul_le_mul_of_nonneg_left h5 h8
  refine le_trans ?_ h9
  rw [hd]
  have h10 : 0 ≤ d * |l₂| * (|q| + 1) := by positivity
  have h11 : 0 ≤ ε * |q| * |l₂| := by positivity
  nlinarith

/-- **C76** Generated `log` in float arithmetic, of every normal number to every normal base that is not close to one. -/
theorem C76_log (h : LibraryOk ext fx b32 P calls g u w) {a b : ℝ} (ha : (fmtOf b32).Repr a) (h1 : (fmtOf b32).tiny ≤ a) (h2 : a < 2 ^ ((fmtOf b32).bias + 1))
    (hb : (fmtOf b32).Repr b) (hb1 : (fmtOf b32).tiny ≤ b) (hb2 : b < 2 ^ ((fmtOf b32).bias + 1)) (hb3 : 1 / 4 ≤ |Real.logb 2 b|) :
    ∃ y, calls "log" [.f a, .f b] = .f y ∧
      |y - Real.logb b a| ≤ 3 / 2 * (log2Bound b32 u w / |Real.logb 2 b|) * (|Real.logb b a| + 1) + 4 * (fmtOf b32).eps * (|Real.logb b a| + 1) := by
  have hF := FloatFmt.wide_fmtOf b32
  have hε := FloatFmt.eps_pos (F := fmtOf b32)
  have heps := eps_fmtOf b32
  norm_num at heps
  obtain ⟨y₁, hy₁, -, he₁⟩ := h.log2.val a ha h1 h2
  obtain ⟨y₂, hy₂, -, he₂⟩ := h.log2.val b hb hb1 hb2
  obtain ⟨h0, he⟩ := div_close hε (by linarith) h.log2_small.1 h.log2_small.2 hb3 he₁ he₂
  have hrun : calls "log" [.f a, .f b] = (fmtOf b32).rne (y₁ / y₂) := by
    rw [show calls "log" [.f a, .f b] = _ from h.fn "log" (by decide +kernel) rfl [.f a, .f b]]
    simp only [Gen.log, ofFty_apply, List.map, bindParams]
    simp [hy₁, hy₂, binIE_div _ h0]
  have hq : Real.logb 2 a / Real.logb 2 b = Real.logb b a := by
    have := Real.log_two_gt_d9
    have h3 : Real.log 2 ≠ 0 := by norm_num at this; linarith
    simp only [Real.logb]
    exact div_div_div_cancel_right₀ h3 _ _
  rw [hq] at he
  have hla := logb_range h1 h2
  have hbb := bias_le b32
  have hqa : |Real.logb b a| ≤ 4096 := by
    rw [← hq, abs_div, div_le_iff₀ (by linarith)]
    linarith
  have hδ := h.log2_small
  generalize log2Bound b32 u w = δ at *
  have hd0 : 0 ≤ δ / |Real.logb 2 b| := div_nonneg hδ.1 (abs_nonneg _)
  have hd : δ / |Real.logb 2 b| ≤ 12 / 100 := by rw [div_le_iff₀ (by linarith)]; linarith
  generalize δ / |Real.logb 2 b| = d at *
  generalize Real.logb b a = q at *
  have hq0 := abs_nonneg q
  have hdq : 0 ≤ d * (|q| + 1) := by positivity
  have hdq1 : d * (|q| + 1) ≤ 12 / 100 * (|q| + 1) := mul_le_mul_of_nonneg_right hd (by linarith)
  have heq0 : 0 ≤ (fmtOf b32).eps * |q| := by positivity
  have heq1 : (fmtOf b32).eps * |q| ≤ 1 / 16777216 * |q| := mul_le_mul_of_nonneg_right heps hq0
  have h3 : |y₁ / y₂| ≤ 12 / 10 * |q| + 2 / 10 := by
    have := abs_sub_abs_le_abs_sub (y₁ / y₂) q
    linarith
  refine ⟨_, hrun.trans (rne_small (h3.trans (by norm_num; linarith))), ?_⟩
  have h4 := FloatFmt.rnd_err (F := fmtOf b32) (y₁ / y₂)
  have hτ := FloatFmt.tiny_le hF
  norm_num at hτ
  have h5 := abs_add_le ((fmtOf b32).rnd (y₁ / y₂) - y₁ / y₂) (y₁ / y₂ - q)
  rw [sub_add_sub_cancel] at h5
  have h6 : (fmtOf b32).eps * (|y₁ / y₂| + (fmtOf b32).tiny) ≤ (fmtOf b32).eps * (12 / 10 * |q| + 1) := mul_le_mul_of_nonneg_left (by linarith) hε.le
  linarith

/-! ## Powers -/

theorem pow_arg {y₁ l y δ ε r : ℝ} (hε : 0 < ε) (hε1 : ε ≤ 1 / 10000) (hδ0 : 0 ≤ δ) (h1 : |y₁ - l| ≤ δ + ε * |l|) (h2 : |r - y₁ * y| ≤ ε * (|y₁ * y| + 1)) :
    |y₁ * y - l * y| ≤ |y| * (δ + ε * |l|) ∧ |r - l * y| ≤ |y| * (11 / 10 * δ + 3 * ε * |l|) + ε := by
  have hy := abs_nonneg y
  have hl := abs_nonneg l
  have h3 : |y₁ * y - l * y| ≤ |y| * (δ + ε * |l|) := by
    rw [← sub_mul, abs_mul, mul_comm]; exact mul_le_mul_of_nonneg_left h1 hy
  refine ⟨h3, ?_⟩
  have h4 := abs_add_le (r - y₁ * y) (y₁ * y - l * y)
  rw [sub_add_sub_cancel] at h4
  have h5 := abs_sub_abs_le_abs_sub (y₁ * y) (l * y)
  rw [abs_mul l y] at h5
  have h6 : ε * (|y₁ * y| + 1) ≤ ε * (|l| * |y| + |y| * (δ + ε * |l|) + 1) := mul_le_mul_of_nonneg_left (by linarith) hε.le
  have h7 : 0 ≤ |y| * (δ + ε * |l|) := by positivity
  have h8 : ε * (|y| * (δ + ε * |l|)) ≤ 1 / 10000 * (|y| * (δ + ε * |l|)) := mul_le_mul_of_nonneg_right hε1 h7
  have h9 : 0 ≤ |y| * δ := by positivity
  have h10 : 0 ≤ |y| * (ε * |l|) := by positivity
  nlinarith

theorem eps_ge (b32 : Bool) : 1 / 2 ^ 53 ≤ (fmtOf b32).eps := by
  cases b32
  · rw [eps_f64]
  · rw [FloatFmt.eps, show -((fmtOf true).mant : ℤ) - 1 = -24 by decide]; norm_num

theorem pow_logb {a : ℝ} (ha : 0 < a) (y : ℝ) : (2 : ℝ) ^ (Real.logb 2 a * y) = a ^ y := by
  rw [Real.rpow_mul (by norm_num), Real.rpow_logb (by norm_num) (by norm_num) ha]

/-- The error of the exponent that `powf` hands to `exp2`. -/
noncomputable def powfErr (b32 : Bool) (u w a y : ℝ) : ℝ := |y| * (11 / 10 * log2Bound b32 u w + 3 * (fmtOf b32).eps * |Real.logb 2 a|) + (fmtOf b32).eps

theorem LibraryOk.powf_run (h : LibraryOk ext fx b32 P calls g u w) (a y : RV) :
    calls "powf" [a, y] = calls "exp2" [binIE (fmtOf b32) .mul (calls "log2" [a]) y] := by
  rw [show calls "powf" [a, y] = _ from h.fn "powf" (by decide +kernel) rfl [a, y]]
  simp only [Gen.powf, ofFty_apply, List.map, bindParams]
  simp

/-- **C76** Generated `powf` in float arithmetic, for every normal base and every exponent for which the power is below half of the largest float and the error of the
logarithm, which is multiplied by the exponent, is still small. -/
theorem C76_powf (h : LibraryOk ext fx b32 P calls g u w) {a y : ℝ} (ha : (fmtOf b32).Repr a) (h1 : (fmtOf b32).tiny ≤ a) (h2 : a < 2 ^ ((fmtOf b32).bias + 1))
    (hD : powfErr b32 u w a y ≤ 1 / 4) (h3 : Real.logb 2 a * y ≤ (fmtOf b32).bias - 1 / 4) :
    ∃ z, calls "powf" [.f a, .f y] = .f z ∧ |z - a ^ y| ≤ (exp2Bound b32 u w + 2 * powfErr b32 u w a y) * a ^ y + 2 * (fmtOf b32).tiny ∧
      (5 / 4 - ((fmtOf b32).bias : ℝ) ≤ Real.logb 2 a * y → |z - a ^ y| ≤ (exp2Bound b32 u w + 2 * powfErr b32 u w a y) * a ^ y) := by
  have hF := FloatFmt.wide_fmtOf b32
  have hε := FloatFmt.eps_pos (F := fmtOf b32)
  have heps := eps_fmtOf b32
  norm_num at heps
  have ha0 : 0 < a := lt_of_lt_of_le (FloatFmt.tiny_pos (F := fmtOf b32)) h1
  obtain ⟨y₁, hy₁, -, he₁⟩ := h.log2.val a ha h1 h2
  have hτ : (fmtOf b32).tiny ≤ 1 := (FloatFmt.tiny_le hF).trans (by norm_num)
  obtain ⟨hx, hr⟩ := pow_arg (y := y) hε (by linarith) h.log2_small.1 he₁
    ((FloatFmt.rnd_err (F := fmtOf b32) (y₁ * y)).trans (mul_le_mul_of_nonneg_left (by linarith) hε.le))
  rw [h.powf_run, hy₁, binIE_mul]
  have hδ := h.log2_small
  have hrn : (fmtOf b32).rne (y₁ * y) = .f ((fmtOf b32).rnd (y₁ * y)) := by
    refine rne_small ?_
    have h4 := abs_sub_abs_le_abs_sub (y₁ * y) (Real.logb 2 a * y)
    have h5 : 3 * (fmtOf b32).eps * |Real.logb 2 a * y| ≤ 1 / 4 := by
      rw [abs_mul]
      unfold powfErr at hD
      have : 0 ≤ |y| * (11 / 10 * log2Bound b32 u w) := mul_nonneg (abs_nonneg _) (by linarith)
      nlinarith
    have h6 : |y| * (log2Bound b32 u w + (fmtOf b32).eps * |Real.logb 2 a|) ≤ 1 / 4 := by
      unfold powfErr at hD
      have : 0 ≤ |y| * (1 / 10 * log2Bound b32 u w) := mul_nonneg (abs_nonneg _) (by linarith)
      have : 0 ≤ |y| * ((fmtOf b32).eps * |Real.logb 2 a|) := by positivity
      nlinarith
    have h7 : |Real.logb 2 a * y| ≤ 2 ^ 53 := by
      have h8 := mul_le_mul_of_nonneg_right (eps_ge b32) (abs_nonneg (Real.logb 2 a * y))
      generalize |Real.logb 2 a * y| = z at *
      norm_num at h8 ⊢
      linarith
    refine le_trans (b := (2 : ℝ) ^ 53 + 1) (by linarith) (by norm_num)
  rw [hrn]
  have hp := pow_logb ha0 y
  obtain ⟨z, hz, -, he⟩ := h.exp2.any h.exp2_small.1 h.exp2_small.2 (FloatFmt.rnd_repr _) hr hD h3
  rw [hp] at he
  refine ⟨z, hz, he, fun h4 => ?_⟩
  obtain ⟨z', hz', -, he'⟩ := h.exp2.near h.exp2_small.1 h.exp2_small.2 (FloatFmt.rnd_repr _) hr hD h4 h3
  rw [hz] at hz'
  rw [RV.f.inj hz', ← hp]
  exact he'

/-- **C76** Larger powers are infinite. -/
theorem C76_powf_high (h : LibraryOk ext fx b32 P calls g u w) {a y : ℝ} (ha : (fmtOf b32).Repr a) (h1 : (fmtOf b32).tiny ≤ a) (h2 : a < 2 ^ ((fmtOf b32).bias + 1))
    (hD : powfErr b32 u w a y ≤ 1 / 4) (h3 : ((fmtOf b32).bias : ℝ) + 3 / 4 ≤ Real.logb 2 a * y) : calls "powf" [.f a, .f y] = .inf false := by
  have hF := FloatFmt.wide_fmtOf b32
  have hε := FloatFmt.eps_pos (F := fmtOf b32)
  have heps := eps_fmtOf b32
  norm_num at heps
  obtain ⟨y₁, hy₁, -, he₁⟩ := h.log2.val a ha h1 h2
  have hτ : (fmtOf b32).tiny ≤ 1 := (FloatFmt.tiny_le hF).trans (by norm_num)
  obtain ⟨hx, -⟩ := pow_arg (y := y) hε (by linarith) h.log2_small.1 he₁
    ((FloatFmt.rnd_err (F := fmtOf b32) (y₁ * y)).trans (mul_le_mul_of_nonneg_left (by linarith) hε.le))
  rw [h.powf_run, hy₁, binIE_mul]
  refine h.exp2.over hF ?_ (repr_bias_half b32).1
  have hδ := h.log2_small
  have h6 : |y| * (log2Bound b32 u w + (fmtOf b32).eps * |Real.logb 2 a|) ≤ 1 / 4 := by
    unfold powfErr at hD
    have : 0 ≤ |y| * (1 / 10 * log2Bound b32 u w) := mul_nonneg (abs_nonneg _) (by linarith)
    have : 0 ≤ |y| * ((fmtOf b32).eps * |Real.logb 2 a|) := by positivity
    nlinarith
  linarith [(abs_le.1 (hx.trans h6)).1]

/-- **C76** Powers of zero and of the subnormal numbers. -/
theorem C76_powf_zero (h : LibraryOk ext fx b32 P calls g u w) {a y : ℝ} (h0 : 0 ≤ a) (h1 : a < (fmtOf b32).tiny) (hy : y ≠ 0) :
    calls "powf" [.f a, .f y] = if 0 < y then .f 0 else .inf false := by
  rw [h.powf_run, h.log2.small a h1, if_neg (by linarith)]
  rcases lt_or_gt_of_ne hy with h2 | h2
  · have := h.exp2.inf false
    simp only [Bool.false_eq_true, if_false] at this
    simp [binIE, mulIE, hy, h2, h2.le, this]
  · have := h.exp2.inf true
    simp only [if_true] at this
    simp [binIE, mulIE, hy, h2, h2.le, not_lt.2 h2.le, this]

/-- **C76** Generated `powi` is `powf` at the rounded exponent; up to `2 ^ (mant + 1)` there is nothing to round. -/
theorem C76_powi (h : LibraryOk ext fx b32 P calls g u w) (x : RV) (n : ℤ) :
    calls "powi" [x, .i n] = calls "powf" [x, (fmtOf b32).rne n] ∧ (|n| ≤ 2 ^ ((fmtOf b32).mant + 1) → calls "powi" [x, .i n] = calls "powf" [x, .f n]) := by
  have h1 : calls "powi" [x, .i n] = calls "powf" [x, (fmtOf b32).rne n] := by
    rw [show calls "powi" [x, .i n] = _ from h.fn "powi" (by decide +kernel) rfl [x, .i n]]
    simp only [Gen.powi, RFn.apply, List.map, bindParams]
    simp
  refine ⟨h1, fun hn => ?_⟩
  rw [h1, FloatFmt.rne_repr (FloatFmt.repr_int (FloatFmt.wide_fmtOf b32).ok hn)]
  have h2 : ((|n| : ℤ) : ℝ) ≤ ((2 ^ ((fmtOf b32).mant + 1) : ℤ) : ℝ) := by exact_mod_cast hn
  push_cast at h2
  refine lt_of_le_of_lt h2 (pow_lt_pow_right₀ (by norm_num) ?_)
  cases b32 <;> decide

end
end Verif

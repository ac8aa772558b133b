import Verif.Props.GenTrig
import Mathlib.Analysis.SpecialFunctions.Log.Base
import Mathlib.Analysis.SpecialFunctions.Arsinh
import Mathlib.Analysis.SpecialFunctions.Arcosh
import Mathlib.Analysis.SpecialFunctions.Artanh
import Mathlib.Tactic.FieldSimp

/-! # C57, C58: hyperbolic functions and the exponential family, given exact `exp2`, `log2`, `ln` -/

namespace Verif
open RExpr

/-- The functions and constants the family is built from, taken as exact. -/
structure ExactBase (calls : String → List RV → RV) (g : Name → RV) : Prop where
  exp2 : ∀ t : ℝ, calls "exp2" [.f t] = .f ((2 : ℝ) ^ t)
  log2 : ∀ t : ℝ, 0 < t → calls "log2" [.f t] = .f (Real.logb 2 t)
  ln : ∀ t : ℝ, 0 < t → calls "ln" [.f t] = .f (Real.log t)
  log2_e : g ["LOG2_E"] = .f (Real.logb 2 (Real.exp 1))
  recip_log2_e : g ["RECIP_LOG2_E"] = .f (1 / Real.logb 2 (Real.exp 1))
  recip_log2_10 : g ["RECIP_LOG2_10"] = .f (1 / Real.logb 2 10)

theorem two_rpow_logb_e (x : ℝ) : (2 : ℝ) ^ (x * Real.logb 2 (Real.exp 1)) = Real.exp x := by
  rw [mul_comm, Real.rpow_mul (by norm_num), Real.rpow_logb (by norm_num) (by norm_num) (Real.exp_pos 1), Real.exp_one_rpow]

section
variable {F : FloatFmt} {calls : String → List RV → RV} {g : Name → RV}

/-! ## C58 -/

/-- **C58** `exp`. -/
theorem C58_exp (h : ExactBase calls g) (x : ℝ) : Gen.exp.apply (realInterp F calls) g [.f x] = .f (Real.exp x) := by
  simp only [Gen.exp, ofFty_apply, List.map, bindParams]
  simp [h.log2_e, h.exp2, two_rpow_logb_e]

/-- **C58** `ln`, for positive arguments. -/
theorem C58_ln (h : ExactBase calls g) {x : ℝ} (hx : 0 < x) : Gen.ln.apply (realInterp F calls) g [.f x] = .f (Real.log x) := by
  have h2 : Real.log 2 ≠ 0 := Real.log_ne_zero_of_pos_of_ne_one (by norm_num) (by norm_num)
  simp only [Gen.ln, ofFty_apply, List.map, bindParams]
  simp [h.recip_log2_e, h.log2 x hx, Real.logb]
  field_simp

/-- **C58** `log10`, for positive arguments. -/
theorem C58_log10 (h : ExactBase calls g) {x : ℝ} (hx : 0 < x) : Gen.log10.apply (realInterp F calls) g [.f x] = .f (Real.logb 10 x) := by
  have h2 : Real.log 2 ≠ 0 := Real.log_ne_zero_of_pos_of_ne_one (by norm_num) (by norm_num)
  simp only [Gen.log10, ofFty_apply, List.map, bindParams]
  simp [h.recip_log2_10, h.log2 x hx, Real.logb]
  field_simp

/-- **C58** `log(x, b)` for positive `x` and a base that is positive and not one. -/
theorem C58_log (h : ExactBase calls g) {x b : ℝ} (hx : 0 < x) (hb : 0 < b) (h1 : b ≠ 1) :
    Gen.log.apply (realInterp F calls) g [.f x, .f b] = .f (Real.logb b x) := by
  have h2 : Real.log 2 ≠ 0 := Real.log_ne_zero_of_pos_of_ne_one (by norm_num) (by norm_num)
  have hb' : Real.log b ≠ 0 := Real.log_ne_zero_of_pos_of_ne_one hb h1
  have hb2 : Real.logb 2 b ≠ 0 := by rw [Real.logb]; exact div_ne_zero hb' h2
  simp only [Gen.log, ofFty_apply, List.map, bindParams]
  simp [h.log2 x hx, h.log2 b hb, bin_div hb2]
  rw [Real.logb, Real.logb, Real.logb]
  field_simp

/-- **C58** `powf(x, y)` for positive `x` and every real `y`. -/
theorem C58_powf (h : ExactBase calls g) {x : ℝ} (hx : 0 < x) (y : ℝ) :
    Gen.powf.apply (realInterp F calls) g [.f x, .f y] = .f (x ^ y) := by
  simp only [Gen.powf, ofFty_apply, List.map, bindParams]
  simp [h.log2 x hx, h.exp2, Real.rpow_mul (show (0 : ℝ) ≤ 2 by norm_num), Real.rpow_logb (show (0 : ℝ) < 2 by norm_num) (by norm_num) hx]

/-- **C58** `powi(x, n)` for positive `x` and every integer `n`. -/
theorem C58_powi_partial (h : ExactBase calls g) (hl : Linked F calls g Gen.powf) {x : ℝ} (hx : 0 < x) (n : ℤ) :
    Gen.powi.apply (realInterp F calls) g [.f x, .i n] = .f (x ^ n) := by
  have hc : calls "powf" [.f x, .f n] = .f (x ^ (n : ℝ)) := by
    rw [← C58_powf (F := F) h hx]; exact hl _
  simp only [Gen.powi, RFn.apply, bindParams]
  simp [hc, Real.rpow_intCast]

/-- **C58** `powi` of a negative number is not its power: the logarithm of a negative number is taken, and `log2` answers `-NAN`. -/
theorem C58_powi_negative {p : RExpr} {x : ℝ} (hx : x < 0) (hn : g ["NAN"] = .nan) :
    (Gen.log2 p).apply (realInterp F calls) g [.f x] = .nan := by
  simp only [Gen.log2, ofFty_apply, List.map, bindParams]
  simp [hx, hn]
  rfl

/-! ## C57 -/

theorem half_exp (x : ℝ) : (2 : ℝ) ^ (x * Real.logb 2 (Real.exp 1) + -1) = Real.exp x / 2 := by
  rw [Real.rpow_add (by norm_num), two_rpow_logb_e, Real.rpow_neg_one]; ring

theorem half_exp_neg (x : ℝ) : (2 : ℝ) ^ (-(x * Real.logb 2 (Real.exp 1)) + -1) = Real.exp (-x) / 2 := by
  rw [show -(x * Real.logb 2 (Real.exp 1)) = -x * Real.logb 2 (Real.exp 1) by ring, half_exp]

/-- **C57** `sinh`, everywhere. -/
theorem C57_sinh (h : ExactBase calls g) (x : ℝ) : Gen.sinh.apply (realInterp F calls) g [.f x] = .f (Real.sinh x) := by
  simp only [Gen.sinh, Gen.hypLets, ofFty_apply, List.map, bindParams, List.cons_append, List.nil_append]
  simp only [denoteBlock_letT, denoteBlock_expr, denote_method, denote_v, denote_neg, denote_sub, denote_app, denoteArgs_cons, denoteArgs_nil,
    envSet_one, num_1, real_un, real_meth, real_bin, real_call]
  simp [h.log2_e]
  rw [h.exp2, h.exp2, half_exp, half_exp_neg, bin_sub, Real.sinh_eq]; congr 1; ring

/-- **C57** `cosh`, everywhere. -/
theorem C57_cosh (h : ExactBase calls g) (x : ℝ) : Gen.cosh.apply (realInterp F calls) g [.f x] = .f (Real.cosh x) := by
  simp only [Gen.cosh, Gen.hypLets, ofFty_apply, List.map, bindParams, List.cons_append, List.nil_append]
  simp only [denoteBlock_letT, denoteBlock_expr, denote_method, denote_v, denote_neg, denote_add, denote_app, denoteArgs_cons, denoteArgs_nil,
    envSet_one, num_1, real_un, real_meth, real_bin, real_call]
  simp [h.log2_e]
  rw [h.exp2, h.exp2, half_exp, half_exp_neg, bin_add, Real.cosh_eq]; congr 1; ring

/-- **C57** `tanh`, everywhere. -/
theorem C57_tanh (h : ExactBase calls g) (x : ℝ) : Gen.tanh.apply (realInterp F calls) g [.f x] = .f (Real.tanh x) := by
  simp only [Gen.tanh, ofFty_apply, List.map, bindParams]
  have e : (2 : ℝ) ^ (x * (Real.logb 2 (Real.exp 1) * 2)) = Real.exp x * Real.exp x := by
    rw [show x * (Real.logb 2 (Real.exp 1) * 2) = (x + x) * Real.logb 2 (Real.exp 1) by ring, two_rpow_logb_e, Real.exp_add]
  have hpos := Real.exp_pos x
  simp [h.log2_e, h.exp2, e]
  rw [bin_div (by positivity)]
  rw [Real.tanh_eq_sinh_div_cosh, Real.sinh_eq, Real.cosh_eq, Real.exp_neg]
  congr 1
  have h1 : Real.exp x * Real.exp x + 1 ≠ 0 := by positivity
  have h2 : (Real.exp x + (Real.exp x)⁻¹) / 2 ≠ 0 := by positivity
  rw [div_eq_div_iff h1 h2]
  field_simp

/-- **C57** `asinh`, everywhere. -/
theorem C57_asinh (h : ExactBase calls g) (x : ℝ) : Gen.asinh.apply (realInterp F calls) g [.f x] = .f (Real.arsinh x) := by
  simp only [Gen.asinh, ofFty_apply, List.map, bindParams]
  have hs : 0 ≤ x * x + 1 := by nlinarith
  have hp : 0 < x + Real.sqrt (x * x + 1) := by
    have h1 : |x| < Real.sqrt (x * x + 1) := by rw [← Real.sqrt_mul_self_eq_abs]; exact Real.sqrt_lt_sqrt (mul_self_nonneg x) (by linarith)
    linarith [neg_abs_le x]
  simp [meth_sqrt F hs, h.ln _ hp]
  rw [Real.arsinh]; congr 2; ring_nf

/-- **C57** `acosh`, on its domain. -/
theorem C57_acosh (h : ExactBase calls g) {x : ℝ} (hx : 1 ≤ x) : Gen.acosh.apply (realInterp F calls) g [.f x] = .f (Real.arcosh x) := by
  simp only [Gen.acosh, ofFty_apply, List.map, bindParams]
  have hs : 0 ≤ x * x - 1 := by nlinarith
  have hp : 0 < x + Real.sqrt (x * x - 1) := by have := Real.sqrt_nonneg (x * x - 1); linarith
  simp [not_lt.2 hx, meth_sqrt F hs, h.ln _ hp]
  rw [Real.arcosh]; congr 2; ring_nf

/-- **C57** `acosh` off its domain. -/
theorem C57_acosh_nan {x : ℝ} (hx : x < 1) (hn : g ["NAN"] = .nan) : Gen.acosh.apply (realInterp F calls) g [.f x] = .nan := by
  simp only [Gen.acosh, ofFty_apply, List.map, bindParams]
  simp [hx, hn]

/-- **C57** `atanh`, on its domain. -/
theorem C57_atanh (h : ExactBase calls g) {x : ℝ} (h1 : -1 < x) (h2 : x < 1) :
    Gen.atanh.apply (realInterp F calls) g [.f x] = .f (Real.artanh x) := by
  simp only [Gen.atanh, ofFty_apply, List.map, bindParams]
  have a1 : 0 < 1 + x := by linarith
  have a2 : 0 < 1 - x := by linarith
  simp [h.ln _ a1, h.ln _ a2]
  rw [Real.artanh_eq_half_log ⟨h1.le, h2.le⟩, Real.log_div a1.ne' a2.ne']
  ring
end

/-! The hypotheses can be met. -/

noncomputable def demoBase (name : String) (args : List RV) : RV :=
  match name, args with
  | "exp2", [.f t] => .f ((2 : ℝ) ^ t)
  | "log2", [.f t] => .f (Real.logb 2 t)
  | "ln", [.f t] => .f (Real.log t)
  | "powf", args => Gen.powf.apply (realInterp .f64 fun n a => match n, a with
      | "exp2", [.f t] => .f ((2 : ℝ) ^ t)
      | "log2", [.f t] => .f (Real.logb 2 t)
      | _, _ => .junk) (fun _ => .junk) args
  | _, _ => .junk

noncomputable def demoBaseConsts : Name → RV
  | ["LOG2_E"] => .f (Real.logb 2 (Real.exp 1))
  | ["RECIP_LOG2_E"] => .f (1 / Real.logb 2 (Real.exp 1))
  | ["RECIP_LOG2_10"] => .f (1 / Real.logb 2 10)
  | _ => .junk

theorem demo_exactBase : ExactBase demoBase demoBaseConsts := by
  constructor <;> intros <;> rfl

example : Gen.tanh.apply (realInterp .f64 demoBase) demoBaseConsts [.f (1 / 2)] = .f (Real.tanh (1 / 2)) := C57_tanh demo_exactBase _
example : Gen.powf.apply (realInterp .f64 demoBase) demoBaseConsts [.f 3, .f (-2)] = .f ((3 : ℝ) ^ (-2 : ℝ)) :=
  C58_powf demo_exactBase (by norm_num) _

end Verif

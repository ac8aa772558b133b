import Verif.Props.IeeeSpecialRoot
import Verif.Props.IeeeExamples

/-!
# C88: concrete instances

A library that meets the hypotheses of C88 exists, and the theorems say something about it.
-/

namespace Verif
open RExpr

/-- A library of which half the functions keep a NaN and the other half do not. -/
example (b32 : Bool) : ∃ calls, LibraryOk goodExt wideFx b32 (shippedParts goodExt wideFx b32 fun _ => RExpr.num "3.14") calls (bitsIE b32) (fmtOf b32).eps ((fmtOf b32).eps * (fmtOf b32).tiny) ∧
    calls "exp2" [.nan] = .nan ∧ calls "sin" [.nan] = .nan ∧ calls "tan" [.inf true] = .nan ∧ calls "asin" [.nan] = .nan ∧ calls "sinh" [.nan] = .nan ∧ calls "acosh" [.inf true] = .nan ∧
    calls "powf" [.f 2, .nan] = .nan ∧ calls "dnorm" [.f 1, .f 0, .nan] = .nan ∧ calls "dnorm" [.inf true, .f 0, .f 1] = .f 0 ∧
    calls "exp_m1" [.inf true] = .nan ∧ calls "log" [.nan, .nan] = .f 1 ∧ calls "powf" [.nan, .f 2] = .inf false ∧ calls "atanh" [.nan] = .f 0 ∧ ∃ y, calls "asinh" [.inf false] = .f y := by
  obtain ⟨calls, h⟩ := libraryOk_exists b32
  have ht : (fmtOf b32).tiny ≤ 1 := (FloatFmt.tiny_le (FloatFmt.wide_fmtOf b32)).trans (by norm_num)
  have h4 : (2 : ℝ) ^ 2 ≤ 2 ^ ((fmtOf b32).bias + 1) := pow_le_pow_right₀ (by norm_num) (by cases b32 <;> decide)
  have hr : (fmtOf b32).Repr 2 := by have := repr_two_pow b32 1; rwa [pow_one] at this
  refine ⟨calls, h, C88_exp2 h, (C88_sin_cos h).1, (C88_tan h).2 _, (C88_asin h).1, (C88_sinh_cosh_tanh h).1, C88_acosh h, C88_powf h (fun a ha => ?_) (.f _), C88_dnorm h (.f _) (.f _) .nan (by simp),
    (C88_dnorm_inf h ht (by linarith) _ _).1, C88_exp_m1_inf_wrong h true, C88_log_wrong h, C88_powf_wrong h (by norm_num), C88_atanh_wrong h, (C88_asinh_wrong h).2 false⟩
  rw [← (by simpa using ha : (2 : ℝ) = a)]
  exact ⟨hr, by linarith⟩

theorem seedEnvIE_bits (b32 : Bool) : seedEnvIE b32 ["EXP2_ONE"] = .f ((fmtOf b32).bias * 2 ^ (fmtOf b32).mant) := rfl

/-- The roots and the reciprocal. -/
example (b32 : Bool) : let run (f : RFn) (x : RV) := f.apply (ieeeInterp (fmtOf b32) (seedCallsIE b32)) (seedEnvIE b32) [x]
    run Gen.sqrt .nan = .nan ∧ run Gen.sqrt (.inf false) = .nan ∧ run Gen.sqrt (.inf true) = .inf true ∧ run Gen.recip .nan = .nan ∧ run Gen.recip (.inf false) = .inf true ∧
    run Gen.cbrt .nan = .nan ∧ run Gen.cbrt (.inf false) = .nan := by
  have h0 := seedEnvIE_bits b32
  have hf : (seedEnvIE b32 ["EXP2_ONE"]).IsFloat := by rw [h0]; exact .f _
  obtain ⟨a, b, ha, hb, -⟩ := (seedEnvIE_thirds b32).get
  have hfa : (seedEnvIE b32 ["ONE_THIRD"]).IsFloat := by rw [ha]; exact .f _
  have hfb : (seedEnvIE b32 ["TWO_THIRDS"]).IsFloat := by rw [hb]; exact .f _
  exact ⟨C88_sqrt hf (seedCallsIE_sqrt b32), (C88_sqrt_wrong h0 (seedCallsIE_sqrt b32)).1, (C88_sqrt_wrong h0 (seedCallsIE_sqrt b32)).2, C88_recip h0 (seedCallsIE_recip b32),
    C88_recip_wrong h0 (seedCallsIE_recip b32) false, C88_cbrt hf hfa hfb, C88_cbrt_wrong hf hfa hfb false⟩

/-- The root of the largest float is negative infinity. -/
example (b32 : Bool) : Gen.sqrt.apply (ieeeInterp (fmtOf b32) (seedCallsIE b32)) (seedEnvIE b32)
    [.f ((fmtOf b32).units ((fmtOf b32).maxPat - 1) * (2 : ℝ) ^ (1 - ((fmtOf b32).bias : ℤ) - (fmtOf b32).mant))] = .inf true := by
  have hF := FloatFmt.wide_fmtOf b32
  have he := FloatFmt.encode_units (F := fmtOf b32) hF.ok (n := (fmtOf b32).maxPat - 1) (by cases b32 <;> decide)
  refine C74_sqrt_max_wrong (seedEnvIE_bits b32) (seedCallsIE_sqrt b32) (by positivity) ?_ ?_
  · rw [he]; cases b32 <;> decide
  · rw [he]; cases b32 <;> decide

/-- `hypot` with a NaN or infinities. -/
example (b32 : Bool) (calls : String → List RV → RV) : let run (x y : RV) := Gen.hypot.apply (ieeeInterp (fmtOf b32) calls) (bitsIE b32) [x, y]
    run (.inf true) (.f 3) = .inf false ∧ run (.f 3) .nan = .nan ∧ run .nan (.f 3) = .nan ∧ run .nan (.f 0) = .f 0 ∧ run (.inf false) (.inf false) = .nan := by
  have hg := bitsIE_consts b32
  have ht : (fmtOf b32).tiny ≤ 1 := (FloatFmt.tiny_le (FloatFmt.wide_fmtOf b32)).trans (by norm_num)
  exact ⟨(C88_hypot_inf hg true 3).1, (C88_hypot_partial hg).1 _ (.f _), (C88_hypot_partial hg).2.1 3 (by rw [abs_of_pos (by norm_num)]; linarith),
    (C88_hypot_wrong hg).1 0 (by rw [abs_zero]; exact FloatFmt.tiny_pos.le), (C88_hypot_wrong hg).2 _ _⟩

end Verif

import Verif.Props.GenTrig
import Mathlib.Analysis.SpecialFunctions.Pow.Real
import Mathlib.Tactic.FieldSimp

/-! # C55, C56: generated `recip`, `sqrt`, `cbrt`, `hypot` -/

namespace Verif
open RExpr

section
variable {F : FloatFmt} {calls : String → List RV → RV} {g : Name → RV}

/-! ## C55 -/

/-- **C55** `recip` squares the relative error three times: with estimate `r`, `1 - x · recip(x) = (1 - x r)^8`. -/
theorem C55_recip {x r : ℝ} (hr : calls "recip_approx" [.f x] = .f r) :
    ∃ y, Gen.recip.apply (realInterp F calls) g [.f x] = .f y ∧ 1 - x * y = (1 - x * r) ^ 8 := by
  simp only [Gen.recip, Gen.recipStep, ofFty_apply, List.map, bindParams]
  simp [hr]
  ring

/-- **C55** One step of `sqrt` squares the error: `sqrt(x) - √x = (r - √x)² / 2r`. -/
theorem C55_sqrt {x r : ℝ} (hx : 0 ≤ x) (h0 : r ≠ 0) (hr : calls "sqrt_approx" [.f x] = .f r) :
    ∃ y, Gen.sqrt.apply (realInterp F calls) g [.f x] = .f y ∧ y - Real.sqrt x = (r - Real.sqrt x) ^ 2 / (2 * r) := by
  simp only [Gen.sqrt, ofFty_apply, List.map, bindParams]
  simp [hr]
  rw [bin_div (by simpa using h0)]
  have hs := Real.sq_sqrt hx
  simp
  generalize Real.sqrt x = s at hs
  subst hs
  field_simp; ring

/-- One Newton step for the cube root of `c³`. -/
noncomputable def cbrtNext (a r : ℝ) : ℝ := r + (a - r * r * r) / (3 * r * r)

/-- **C55** One step of `cbrt` squares the error. -/
theorem C55_cbrt_step {c r : ℝ} (hr : r ≠ 0) : cbrtNext (c ^ 3) r - c = (r - c) ^ 2 * (2 * r + c) / (3 * r ^ 2) := by
  unfold cbrtNext
  field_simp; ring

theorem cbrtNext_pos {c r : ℝ} (hc : 0 < c) (hr : 0 < r) : c ≤ cbrtNext (c ^ 3) r := by
  have h := C55_cbrt_step (c := c) hr.ne'
  have : 0 ≤ (r - c) ^ 2 * (2 * r + c) / (3 * r ^ 2) := by positivity
  linarith

/-- Relative form: an error of at most an eighth shrinks to at most `3/2` its square. -/
theorem cbrt_rel {c r e : ℝ} (hc : 0 < c) (he : |r - c| ≤ e * c) (h8 : e ≤ 1 / 8) :
    0 < r ∧ |cbrtNext (c ^ 3) r - c| ≤ 3 / 2 * e ^ 2 * c := by
  have he0 : 0 ≤ e := by
    by_contra h
    have : e * c < 0 := by nlinarith
    linarith [abs_nonneg (r - c)]
  have h := abs_le.1 he
  have hr : 7 / 8 * c ≤ r := by nlinarith
  have hr2 : r ≤ 9 / 8 * c := by nlinarith
  have hpos : 0 < r := by linarith
  refine ⟨hpos, ?_⟩
  rw [C55_cbrt_step hpos.ne', abs_of_nonneg (by positivity), div_le_iff₀ (by positivity)]
  have h1 : (r - c) ^ 2 ≤ (e * c) ^ 2 := by
    rw [← sq_abs (r - c)]; gcongr
  have h2 : c ^ 2 * (2 * r + c) ≤ 3 / 2 * c * (3 * r ^ 2) := by nlinarith [mul_nonneg hc.le (sub_nonneg.2 hr), mul_nonneg hc.le (sub_nonneg.2 hr2)]
  calc (r - c) ^ 2 * (2 * r + c) ≤ (e * c) ^ 2 * (2 * r + c) := by gcongr
    _ = e ^ 2 * (c ^ 2 * (2 * r + c)) := by ring
    _ ≤ e ^ 2 * (3 / 2 * c * (3 * r ^ 2)) := by gcongr
    _ = _ := by ring

theorem cbrt_lets {x c : ℝ} (hc : 0 < c) (hx : |x| = c ^ 3) (env : Name → RV) (r : ℝ) (hr : r ≠ 0) (h1 : env ["x"] = .f x) (h2 : env ["r"] = .f r) :
    Gen.cbrtStep.denote (realInterp F calls) env = .f (cbrtNext (c ^ 3) r) := by
  simp [Gen.cbrtStep, h1, h2, hx]
  rw [bin_div (by simpa using hr)]
  simp [cbrtNext]

/-- **C55** Generated `cbrt`: if the initial estimate has relative error `e ≤ 1/8`, the result has the sign of the argument and relative error
at most `(3/2)^15 e^16`. -/
theorem C55_cbrt {x c r e : ℝ} (hc : 0 < c) (hx : |x| = c ^ 3)
    (hr : ((fromBits (as (.paren (.method (.paren (as (.method (.method (v "x") "abs" []) "to_bits" []) "fty")) "mul_add"
      [v "ONE_THIRD", v "EXP2_ONE" * v "TWO_THIRDS"])) "uty")).denote (realInterp F calls) (envSet g "x" (.f x))) = .f r)
    (he : |r - c| ≤ e * c) (h8 : e ≤ 1 / 8) :
    ∃ y, Gen.cbrt.apply (realInterp F calls) g [.f x] = .f y ∧
      |y - (if x < 0 then -c else c)| ≤ (3 / 2) ^ 15 * e ^ 16 * c := by
  have he0 : 0 ≤ e := by
    by_contra h
    have : e * c < 0 := by nlinarith
    linarith [abs_nonneg (r - c)]
  have step : ∀ q f : ℝ, 0 ≤ f → |q - c| ≤ f * c → f ≤ 1 / 8 → 0 < q ∧ |cbrtNext (c ^ 3) q - c| ≤ (3 / 2 * f ^ 2) * c ∧ 3 / 2 * f ^ 2 ≤ 1 / 8 := by
    intro q f h0 h1 h2
    obtain ⟨ha, hb⟩ := cbrt_rel hc h1 h2
    exact ⟨ha, hb, by nlinarith⟩
  obtain ⟨p0, b0, s0⟩ := step r e he0 he h8
  obtain ⟨p1, b1, s1⟩ := step _ _ (by positivity) b0 s0
  obtain ⟨p2, b2, s2⟩ := step _ _ (by positivity) b1 s1
  obtain ⟨p3, b3, s3⟩ := step _ _ (by positivity) b2 s2
  obtain ⟨p4, -, -⟩ := step _ _ (by positivity) b3 s3
  generalize hq : cbrtNext (c ^ 3) (cbrtNext (c ^ 3) (cbrtNext (c ^ 3) (cbrtNext (c ^ 3) r))) = q at *
  refine ⟨if x < 0 then -q else q, ?_, ?_⟩
  · simp only [Gen.cbrt, ofFty_apply, List.map, bindParams]
    simp only [denoteBlock_letT, hr]
    rw [cbrt_lets hc hx _ r p0.ne' (by simp) (by simp)]
    rw [cbrt_lets hc hx _ _ p1.ne' (by simp) (by simp)]
    rw [cbrt_lets hc hx _ _ p2.ne' (by simp) (by simp)]
    rw [cbrt_lets hc hx _ _ p3.ne' (by simp) (by simp)]
    rw [hq]
    simp [abs_of_pos p4]
  · have hfin : |q - c| ≤ (3 / 2) ^ 15 * e ^ 16 * c := b3.trans (le_of_eq (by ring))
    split_ifs
    · rwa [show -q - -c = -(q - c) by ring, abs_neg]
    · exact hfin

/-! ## C56 -/

/-- **C56** Where the larger coordinate exceeds `MIN_POSITIVE`, generated `hypot` is the Euclidean norm. -/
theorem C56_hypot_partial {m : ℝ} (hm : g ["MIN_POSITIVE"] = .f m) (h0 : 0 ≤ m) (x y : ℝ) (h : m < max |x| |y|) :
    Gen.hypot.apply (realInterp F calls) g [.f x, .f y] = .f (Real.sqrt (x ^ 2 + y ^ 2)) := by
  have core : ∀ u w : ℝ, w ≠ 0 → |w| * Real.sqrt (1 + u / w * (u / w)) = Real.sqrt (w ^ 2 + u ^ 2) := by
    intro u w hw
    rw [← Real.sqrt_sq_eq_abs, ← Real.sqrt_mul (sq_nonneg w)]
    congr 1; field_simp
  have hsq : ∀ u w : ℝ, methRV F "sqrt" (.f (1 + u / w * (u / w))) [] = .f (Real.sqrt (1 + u / w * (u / w))) :=
    fun u w => meth_sqrt F (by have := mul_self_nonneg (u / w); linarith)
  simp only [Gen.hypot, ofFty_apply, List.map, bindParams]
  by_cases hlt : |y| < |x|
  · have hx : m < |x| := by rwa [max_eq_left hlt.le] at h
    have hx0 : x ≠ 0 := by rintro rfl; rw [abs_zero] at hx; linarith
    simp [hlt, hm, not_le.2 hx, bin_div hx0, hsq, core y x hx0]
  · have hy : m < |y| := by rwa [max_eq_right (not_lt.1 hlt)] at h
    have hy0 : y ≠ 0 := by rintro rfl; rw [abs_zero] at hy; linarith
    rw [add_comm (x ^ 2)]
    simp [hlt, hm, not_le.2 hy, bin_div hy0, hsq, core x y hy0]

/-- **C56** Otherwise the larger coordinate itself is returned, with its sign. -/
theorem C56_hypot_tiny {m : ℝ} (hm : g ["MIN_POSITIVE"] = .f m) (x y : ℝ) (h : max |x| |y| ≤ m) :
    Gen.hypot.apply (realInterp F calls) g [.f x, .f y] = .f (if |y| < |x| then x else y) := by
  have hx := (le_max_left |x| |y|).trans h
  have hy := (le_max_right |x| |y|).trans h
  simp only [Gen.hypot, ofFty_apply, List.map, bindParams]
  by_cases hlt : |y| < |x| <;> simp [hlt, hm, hx, hy]

/-- **C56** So the claim is false: `hypot(-m, 0) = -m` for the smallest normal number `m`. -/
theorem C56_hypot_negative {m : ℝ} (hm : g ["MIN_POSITIVE"] = .f m) (h0 : 0 < m) :
    Gen.hypot.apply (realInterp F calls) g [.f (-m), .f 0] = .f (-m) ∧ -m < 0 ∧ -m ≠ Real.sqrt ((-m) ^ 2 + 0 ^ 2) := by
  refine ⟨?_, by linarith, ?_⟩
  · rw [C56_hypot_tiny hm _ _ (by simp [abs_of_pos h0, h0.le])]
    simp [h0.ne']
  · have := Real.sqrt_nonneg ((-m) ^ 2 + 0 ^ 2)
    intro h; linarith
end

example : ∃ y, Gen.recip.apply (realInterp .f32 fun _ _ => .f (3 / 10)) (fun _ => .junk) [.f 3] = .f y ∧ 1 - 3 * y = (1 / 10) ^ 8 := by
  obtain ⟨y, h1, h2⟩ := C55_recip (F := .f32) (calls := fun _ _ => .f (3 / 10)) (g := fun _ => .junk) (x := 3) rfl
  exact ⟨y, h1, by rw [h2]; norm_num⟩

example : Gen.hypot.apply (realInterp .f32 fun _ _ => .junk) (fun _ => .f (1 / 2 ^ 126)) [.f 3, .f (-4)] = .f 5 := by
  rw [C56_hypot_partial rfl (by positivity)]
  · rw [show (3 : ℝ) ^ 2 + (-4) ^ 2 = 5 ^ 2 by norm_num, Real.sqrt_sq (by norm_num)]
  · have : max |(3 : ℝ)| |(-4)| = 4 := by norm_num
    rw [this]; norm_num

end Verif

import Verif.Props.IeeeArea

/-!
# C76: concrete instances

A library that meets the hypotheses of the theorems of C76 exists, and each theorem says something about it.
-/

namespace Verif
open RExpr

theorem libraryOk_exists (b32 : Bool) : ∃ calls, LibraryOk goodExt wideFx b32 (shippedParts goodExt wideFx b32 fun _ => RExpr.num "3.14") calls (bitsIE b32) (fmtOf b32).eps ((fmtOf b32).eps * (fmtOf b32).tiny) := by
  obtain ⟨calls, h⟩ := C76_library_exists b32
  have hε := FloatFmt.eps_pos (F := fmtOf b32)
  have hτ := (FloatFmt.tiny_le (FloatFmt.wide_fmtOf b32)).trans (by norm_num : _ ≤ (1 : ℝ))
  have heps := eps_fmtOf b32
  norm_num at heps
  exact ⟨calls, h, goodExt_ok, by decide, wideFx_ieee b32, by linarith, by nlinarith⟩

section
variable {ext : BdExt} {fx : FloatExt} {P : Gen.Parts} {calls : String → List RV → RV} {g : Name → RV} {u w : ℝ}

theorem bias_f64 : (fmtOf false).bias = 1023 := by decide
theorem bias_f32 : (fmtOf true).bias = 127 := by decide
theorem mant_f64 : (fmtOf false).mant = 52 := by decide

theorem quotient_log_two {x lo hi : ℝ} (h0 : 0 < x) (h1 : lo * (6931471808 / 10000000000) ≤ x) (h2 : x ≤ hi * (6931471803 / 10000000000)) (hl : 0 ≤ lo) (hh : 0 ≤ hi) : lo ≤ x / Real.log 2 ∧ x / Real.log 2 ≤ hi := by
  have k1 := Real.log_two_gt_d9
  have k2 := Real.log_two_lt_d9
  norm_num at k1 k2
  have hp : 0 < Real.log 2 := by linarith
  rw [le_div_iff₀ hp, div_le_iff₀ hp]
  constructor <;> nlinarith

/-- `e`, and one argument too large. -/
example (h : LibraryOk ext fx false P calls g u w) : (∃ y, calls "exp" [.f 1] = .f y ∧ |y - Real.exp 1| ≤ (exp2Bound false u w + 12 * (fmtOf false).eps) * Real.exp 1) ∧ calls "exp" [.f 710] = .inf false := by
  have h1 := quotient_log_two (x := 1) (lo := 1) (hi := 2) (by norm_num) (by norm_num) (by norm_num) (by norm_num) (by norm_num)
  have h2 := quotient_log_two (x := 710) (lo := 1024) (hi := 1025) (by norm_num) (by norm_num) (by norm_num) (by norm_num) (by norm_num)
  constructor
  · obtain ⟨y, hy, he⟩ := C76_exp h (a := 1) (by rw [bias_f64]; push_cast; linarith [h1.1]) (by rw [bias_f64]; push_cast; linarith [h1.2])
    refine ⟨y, hy, ?_⟩
    rw [abs_one] at he
    convert he using 3
    ring
  · exact C76_exp_high h (by rw [bias_f64]; push_cast; linarith [h2.1])

/-- At 64 bits `e` is computed within one part in `2⁴⁶`. -/
example : ∃ calls, (∃ y, LibraryOk goodExt wideFx false (shippedParts goodExt wideFx false fun _ => RExpr.num "3.14") calls (bitsIE false) (fmtOf false).eps ((fmtOf false).eps * (fmtOf false).tiny) ∧
    calls "exp" [.f 1] = .f y ∧ |y - Real.exp 1| ≤ 1 / 2 ^ 46 * Real.exp 1) := by
  obtain ⟨calls, h⟩ := libraryOk_exists false
  have h1 := quotient_log_two (x := 1) (lo := 1) (hi := 2) (by norm_num) (by norm_num) (by norm_num) (by norm_num) (by norm_num)
  obtain ⟨y, hy, he⟩ := C76_exp h (a := 1) (by rw [bias_f64]; push_cast; linarith [h1.1]) (by rw [bias_f64]; push_cast; linarith [h1.2])
  refine ⟨calls, y, h, hy, he.trans (mul_le_mul_of_nonneg_right ?_ (Real.exp_pos 1).le)⟩
  have hτ := (FloatFmt.tiny_le (FloatFmt.wide_fmtOf false))
  have hτ0 := FloatFmt.tiny_pos (F := fmtOf false)
  have hs : √2 ≤ 3 / 2 := by rw [Real.sqrt_le_left (by norm_num)]; norm_num
  have hs0 := Real.sqrt_nonneg 2
  rw [eps_f64, abs_one]
  simp only [exp2Bound, exp2Err, exp2Ops, eps_f64, Bool.false_eq_true, if_false]
  have k : √2 * (1 / 10 ^ 17 + 2 * (1 / 2 ^ 53) + 12 * (1 / 2 ^ 53 * (fmtOf false).tiny) + 23 * (1 / 2 ^ 53)) ≤ 3 / 2 * (1 / 10 ^ 17 + 2 * (1 / 2 ^ 53) + 12 * (1 / 2 ^ 53 * 1) + 23 * (1 / 2 ^ 53)) :=
    mul_le_mul hs (by norm_num at hτ ⊢; linarith) (by positivity) (by norm_num)
  refine (add_le_add_left (add_le_add_left k _) _).trans ?_
  norm_num

/-- **C76** Arguments whose exponential fits the format, though the generated `exp` gives infinity. -/
theorem C76_exp_early {b32 : Bool} (h : LibraryOk ext fx b32 P calls g u w) {a : ℝ} (h1 : ((fmtOf b32).bias : ℝ) + 3 / 4 ≤ a / Real.log 2) (h2 : a / Real.log 2 ≤ (fmtOf b32).bias + 7 / 8) :
    calls "exp" [.f a] = .inf false ∧ ∃ y, (fmtOf b32).rne (Real.exp a) = .f y := by
  refine ⟨C76_exp_high h h1, (fmtOf b32).rnd (Real.exp a), ?_⟩
  have k1 := Real.log_two_gt_d9
  have k2 := Real.log_two_lt_d9
  norm_num at k1 k2
  have hp : 0 < Real.log 2 := by linarith
  have h15 : (fmtOf b32).Repr (15 * 2 ^ ((fmtOf b32).bias - 3)) := ⟨15, ((fmtOf b32).bias - 3 : ℕ), by push_cast; rw [zpow_natCast], by cases b32 <;> decide, by cases b32 <;> decide⟩
  have hpow : (2 : ℝ) ^ ((fmtOf b32).bias + 1) = 16 * 2 ^ ((fmtOf b32).bias - 3) := by
    rw [show (16 : ℝ) = 2 ^ 4 by norm_num, ← pow_add]
    congr 1
    cases b32 <;> decide
  have hpos : (0 : ℝ) < 2 ^ ((fmtOf b32).bias - 3) := by positivity
  have he : Real.exp a ≤ 15 * 2 ^ ((fmtOf b32).bias - 3) := by
    rw [← Real.le_log_iff_exp_le (by positivity), show (15 : ℝ) * 2 ^ ((fmtOf b32).bias - 3) = 15 / 16 * 2 ^ ((fmtOf b32).bias + 1) by rw [hpow]; ring, Real.log_mul (by norm_num) (by positivity), Real.log_pow]
    rw [div_le_iff₀ hp] at h2
    have k3 := Real.one_sub_inv_le_log_of_pos (by norm_num : (0 : ℝ) < 15 / 16)
    norm_num at k3
    push_cast
    linarith
  have hr := FloatFmt.rnd_le h15 he
  have hr0 : 0 ≤ (fmtOf b32).rnd (Real.exp a) := FloatFmt.le_rnd FloatFmt.repr_zero (Real.exp_pos a).le
  rw [FloatFmt.rne, if_pos (by rw [abs_of_nonneg hr0, hpow]; linarith)]

/-- Such an argument. -/
example (h : LibraryOk ext fx false P calls g u w) : calls "exp" [.f (70965 / 100)] = .inf false ∧ ∃ y, (fmtOf false).rne (Real.exp (70965 / 100)) = .f y := by
  have h2 := quotient_log_two (x := 70965 / 100) (lo := 10238 / 10) (hi := 102385 / 100) (by norm_num) (by norm_num) (by norm_num) (by norm_num) (by norm_num)
  exact C76_exp_early h (by rw [bias_f64]; push_cast; linarith [h2.1]) (by rw [bias_f64]; push_cast; linarith [h2.2])

/-! ## Logarithms and powers -/

theorem repr_nat (b32 : Bool) (n : ℕ) (hn : n ≤ 2 ^ 24) : (fmtOf b32).Repr n := by
  have := FloatFmt.repr_int (FloatFmt.wide_fmtOf b32).ok (k := n) (by
    rw [Nat.abs_cast]
    have : (2 : ℤ) ^ 24 ≤ 2 ^ ((fmtOf b32).mant + 1) := pow_le_pow_right₀ (by norm_num) (by cases b32 <;> decide)
    have h2 : (n : ℤ) ≤ 2 ^ 24 := by exact_mod_cast hn
    exact h2.trans this)
  exact_mod_cast this

theorem nat_range (b32 : Bool) {n : ℕ} (h1 : 1 ≤ n) (hn : n ≤ 2 ^ 24) : (fmtOf b32).tiny ≤ (n : ℝ) ∧ (n : ℝ) < 2 ^ ((fmtOf b32).bias + 1) := by
  have hτ := FloatFmt.tiny_le (FloatFmt.wide_fmtOf b32)
  norm_num at hτ
  have hbig : (2 : ℝ) ^ 100 ≤ 2 ^ ((fmtOf b32).bias + 1) := pow_le_pow_right₀ (by norm_num) (by cases b32 <;> decide)
  have k1 : (1 : ℝ) ≤ n := by exact_mod_cast h1
  have k2 : (n : ℝ) ≤ 16777216 := by norm_num at hn; exact_mod_cast hn
  norm_num at hbig
  constructor <;> linarith

/-- `ln 10`, `log10 7` and the logarithm of 81 to the base 3, at both widths. -/
example (b32 : Bool) (h : LibraryOk ext fx b32 P calls g u w) :
    (∃ y, calls "ln" [.f 10] = .f y ∧ |y - Real.log 10| ≤ 4 / 5 * log2Bound b32 u w + 4 * (fmtOf b32).eps * (|Real.log 10| + 1)) ∧
    (∃ y, calls "log10" [.f 7] = .f y ∧ |y - Real.logb 10 7| ≤ 4 / 5 * log2Bound b32 u w + 4 * (fmtOf b32).eps * (|Real.logb 10 7| + 1)) ∧
    (∃ y, calls "log" [.f 81, .f 3] = .f y ∧ |y - 4| ≤ 15 / 2 * log2Bound b32 u w + 20 * (fmtOf b32).eps) := by
  have r := fun n h1 h2 => nat_range b32 (n := n) h1 h2
  refine ⟨?_, ?_, ?_⟩
  · exact_mod_cast C76_ln h (a := (10 : ℕ)) (repr_nat b32 10 (by norm_num)) (r 10 (by norm_num) (by norm_num)).1 (r 10 (by norm_num) (by norm_num)).2
  · exact_mod_cast C76_log10 h (a := (7 : ℕ)) (repr_nat b32 7 (by norm_num)) (r 7 (by norm_num) (by norm_num)).1 (r 7 (by norm_num) (by norm_num)).2
  · have h3 : 1 ≤ Real.logb 2 3 := by
      rw [Real.le_logb_iff_rpow_le (by norm_num) (by norm_num)]; norm_num
    obtain ⟨y, hy, he⟩ := C76_log h (a := (81 : ℕ)) (b := (3 : ℕ)) (repr_nat b32 81 (by norm_num)) (r 81 (by norm_num) (by norm_num)).1 (r 81 (by norm_num) (by norm_num)).2
      (repr_nat b32 3 (by norm_num)) (r 3 (by norm_num) (by norm_num)).1 (r 3 (by norm_num) (by norm_num)).2 (by push_cast; rw [abs_of_pos (by linarith)]; linarith)
    refine ⟨y, by exact_mod_cast hy, ?_⟩
    have h4 : Real.logb 3 81 = 4 := by
      rw [show (81 : ℝ) = 3 ^ (4 : ℝ) by norm_num, Real.logb_rpow (by norm_num) (by norm_num)]
    push_cast at he
    rw [h4, abs_of_pos (by norm_num : (0 : ℝ) < 4), abs_of_pos (by linarith : 0 < Real.logb 2 3)] at he
    have h5 : log2Bound b32 u w / Real.logb 2 3 ≤ log2Bound b32 u w := div_le_self h.log2_small.1 h3
    linarith

theorem logb_two_pow (n : ℕ) : Real.logb 2 (2 ^ n) = n := by
  rw [← Real.rpow_natCast, Real.logb_rpow (by norm_num) (by norm_num)]

theorem powfErr_le {b32 : Bool} (h : LibraryOk ext fx b32 P calls g u w) {a y : ℝ} (hy : |y| ≤ 6) (ha : |Real.logb 2 a| ≤ 1024) : powfErr b32 u w a y ≤ 1 / 4 := by
  have hb := h.log2_small
  have hε := FloatFmt.eps_pos (F := fmtOf b32)
  have heps := eps_fmtOf b32
  norm_num at heps
  unfold powfErr
  have k1 : 3 * (fmtOf b32).eps * |Real.logb 2 a| ≤ 3 * (1 / 16777216) * 1024 := mul_le_mul (by linarith) ha (abs_nonneg _) (by norm_num)
  have k2 : |y| * (11 / 10 * log2Bound b32 u w + 3 * (fmtOf b32).eps * |Real.logb 2 a|) ≤ 6 * (11 / 10 * (3 / 100) + 3 * (1 / 16777216) * 1024) := by
    refine mul_le_mul hy (by linarith) ?_ (by norm_num)
    have := hb.1
    positivity
  norm_num at k2
  linarith

/-- `8³`, a power that is too large, and powers of zero. -/
example (h : LibraryOk ext fx false P calls g u w) :
    (∃ z, calls "powf" [.f 8, .f 3] = .f z ∧ |z - 512| ≤ (exp2Bound false u w + 2 * powfErr false u w 8 3) * 512) ∧ calls "powf" [.f (2 ^ 300), .f 5] = .inf false ∧
    calls "powf" [.f 0, .f 2] = .f 0 ∧ calls "powf" [.f 0, .f (-2)] = .inf false ∧ calls "powi" [.f 8, .i 3] = calls "powf" [.f 8, .f 3] := by
  have r := fun n h1 h2 => nat_range false (n := n) h1 h2
  have h8 : Real.logb 2 8 = 3 := by rw [show (8 : ℝ) = 2 ^ 3 by norm_num, logb_two_pow]; norm_num
  have hτ := FloatFmt.tiny_le (FloatFmt.wide_fmtOf false)
  have hτ0 := FloatFmt.tiny_pos (F := fmtOf false)
  norm_num at hτ
  refine ⟨?_, ?_, ?_, ?_, ?_⟩
  · obtain ⟨z, hz, -, he⟩ := C76_powf h (a := (8 : ℕ)) (y := 3) (repr_nat false 8 (by norm_num)) (r 8 (by norm_num) (by norm_num)).1 (r 8 (by norm_num) (by norm_num)).2
      (powfErr_le h (by rw [abs_of_pos (by norm_num)]; norm_num) (by push_cast; rw [h8, abs_of_pos (by norm_num)]; norm_num)) (by push_cast; rw [h8, bias_f64]; norm_num)
    refine ⟨z, by exact_mod_cast hz, ?_⟩
    have := he (by push_cast; rw [h8, bias_f64]; norm_num)
    push_cast at this
    rwa [show (8 : ℝ) ^ (3 : ℝ) = 512 by norm_num] at this
  · refine C76_powf_high h (repr_two_pow false 300) ?_ ?_ (powfErr_le h (by rw [abs_of_pos (by norm_num)]; norm_num) (by rw [logb_two_pow, Nat.abs_cast]; norm_num)) (by rw [logb_two_pow, bias_f64]; norm_num)
    · exact (hτ.trans (by norm_num)).trans (one_le_pow₀ (by norm_num : (1 : ℝ) ≤ 2))
    · rw [bias_f64]; exact pow_lt_pow_right₀ (by norm_num) (by norm_num)
  · rw [C76_powf_zero h le_rfl hτ0 (by norm_num), if_pos (by norm_num)]
  · rw [C76_powf_zero h le_rfl hτ0 (by norm_num), if_neg (by norm_num)]
  · exact_mod_cast (C76_powi h (.f 8) 3).2 (by norm_num [mant_f64])

/-! ## Hyperbolic functions -/

/-- One argument in range, one too large. -/
example (h : LibraryOk ext fx false P calls g u w) : (∃ y, calls "sinh" [.f 2] = .f y ∧ |y - Real.sinh 2| ≤ (exp2Bound false u w + 27 * (fmtOf false).eps) * Real.cosh 2) ∧
    calls "cosh" [.f 711] = .inf false ∧ (∃ y, calls "tanh" [.f 2] = .f y ∧ |y - Real.tanh 2| ≤ 3 / 5 * exp2Bound false u w + 25 * (fmtOf false).eps) ∧
    (∃ y, calls "tanh" [.f (-1000)] = .f y ∧ |y - Real.tanh (-1000)| ≤ 3 / 5 * exp2Bound false u w + 25 * (fmtOf false).eps) ∧ calls "tanh" [.f 355] = .nan := by
  have h2 := quotient_log_two (x := 2) (lo := 2) (hi := 3) (by norm_num) (by norm_num) (by norm_num) (by norm_num) (by norm_num)
  have h4 := quotient_log_two (x := 4) (lo := 5) (hi := 6) (by norm_num) (by norm_num) (by norm_num) (by norm_num) (by norm_num)
  have h711 := quotient_log_two (x := 711) (lo := 1025) (hi := 1026) (by norm_num) (by norm_num) (by norm_num) (by norm_num) (by norm_num)
  have h710 := quotient_log_two (x := 710) (lo := 1024) (hi := 1025) (by norm_num) (by norm_num) (by norm_num) (by norm_num) (by norm_num)
  have h2000 := quotient_log_two (x := 2000) (lo := 1024) (hi := 3000) (by norm_num) (by norm_num) (by norm_num) (by norm_num) (by norm_num)
  refine ⟨?_, ?_, ?_, ?_, ?_⟩
  · obtain ⟨⟨y, hy, he⟩, -⟩ := C76_sinh_cosh h (x := 2) (by rw [abs_of_pos (by linarith [h2.1]), bias_f64]; push_cast; linarith [h2.2])
    refine ⟨y, hy, ?_⟩
    rw [abs_two] at he
    convert he using 3
    ring
  · exact (C76_sinh_cosh_high h (x := 711) (by rw [bias_f64]; push_cast; linarith [h711.1])).2.1
  · obtain ⟨y, hy, -, he⟩ := C76_tanh_partial h (x := 2) (by rw [bias_f64, show (2 : ℝ) * 2 = 4 by norm_num]; push_cast; linarith [h4.2])
    exact ⟨y, hy, he⟩
  · obtain ⟨y, hy, -, he⟩ := C76_tanh_partial h (x := -1000) (by rw [bias_f64, show (2 : ℝ) * -1000 = -2000 by norm_num, neg_div]; push_cast; linarith [h2000.1])
    exact ⟨y, hy, he⟩
  · exact (C76_tanh_wrong h).1 355 (by rw [bias_f64, show (2 : ℝ) * 355 = 710 by norm_num]; push_cast; linarith [h710.1])

/-- `asinh` of 3 and of −3; of −2⁴⁰, minus infinity; of −2⁶⁰⁰, a positive number. -/
example (h : LibraryOk ext fx false P calls g u w) : (∃ y, calls "asinh" [.f 3] = .f y ∧ |y - Real.arsinh 3| ≤ 4 / 5 * log2Bound false u w + (fmtOf false).eps * (4 * Real.arsinh 3 + 15)) ∧
    (∃ y, calls "asinh" [.f (-3)] = .f y ∧ |y - Real.arsinh (-3)| ≤ 4 / 5 * log2Bound false u w + (fmtOf false).eps * (4 * |Real.arsinh (-3)| + 4 + 13 * 49)) ∧
    calls "asinh" [.f (-2 ^ 40)] = .inf true ∧ ∃ y, calls "asinh" [.f (-2 ^ 600)] = .f y ∧ 700 < y := by
  have hε := FloatFmt.eps_pos (F := fmtOf false)
  have h10 : √(1 + (-3 : ℝ) ^ 2) ≤ 4 := by rw [Real.sqrt_le_left (by norm_num)]; norm_num
  have h100 := Real.sqrt_nonneg (1 + (-3 : ℝ) ^ 2)
  have hsq : (√(1 + (-3 : ℝ) ^ 2) - -3) ^ 2 ≤ 49 := by nlinarith
  refine ⟨?_, ?_, ?_, ?_⟩
  · exact C76_asinh_partial h (by norm_num) (by
      rw [bias_f64]
      exact (by norm_num : (3 : ℝ) ^ 2 ≤ 2 ^ 100).trans (pow_le_pow_right₀ (by norm_num) (by norm_num)))
  · obtain ⟨y, hy, he⟩ := C76_asinh_neg_partial h (x := -3) (by norm_num) (by
      rw [eps_f64]
      have : 1 / 2 ^ 53 * (√(1 + (-3 : ℝ) ^ 2) - -3) ^ 2 ≤ 1 / 2 ^ 53 * 49 := mul_le_mul_of_nonneg_left hsq (by norm_num)
      exact this.trans (by norm_num))
    refine ⟨y, hy, he.trans ?_⟩
    exact add_le_add_right (mul_le_mul_of_nonneg_left (add_le_add_right (mul_le_mul_of_nonneg_left hsq (by norm_num)) _) hε.le) _
  · refine C76_asinh_wrong h (repr_two_pow false 40).neg (by norm_num) ?_ ?_
    · rw [mant_f64]; norm_num
    · rw [bias_f64, neg_sq, ← pow_mul]
      exact pow_le_pow_right₀ (by norm_num) (by norm_num)
  · obtain ⟨-, y, hy, he⟩ := C76_asinh_overflow h (x := -2 ^ 600) (by
      rw [bias_f64, neg_sq, ← pow_mul]
      exact pow_le_pow_right₀ (by norm_num) (by norm_num))
    refine ⟨y, hy, ?_⟩
    have hb := h.log2_small
    have k1 := Real.log_two_gt_d9
    have k2 := Real.log_two_lt_d9
    rw [bias_f64, eps_f64] at he
    norm_num at k1 k2 he
    have := (abs_le.1 he).1
    linarith

/-- `acosh` of 3, of 1/2 and of 2⁶⁰⁰. -/
example (h : LibraryOk ext fx false P calls g u w) : (∃ y, calls "acosh" [.f 3] = .f y ∧ |y - Real.arcosh 3| ≤ 4 / 5 * log2Bound false u w + (fmtOf false).eps * (4 * Real.arcosh 3 + 17)) ∧
    calls "acosh" [.f (1 / 2)] = .nan ∧ calls "acosh" [.f (2 ^ 600)] = calls "ln" [.inf false] := by
  refine ⟨?_, C76_acosh_nan h (by norm_num), C76_acosh_overflow h (one_le_pow₀ (by norm_num)) ?_⟩
  · obtain ⟨y, hy, -, he⟩ := C76_acosh_partial h (x := 3) (by norm_num) (by
      rw [bias_f64]
      exact (by norm_num : (3 : ℝ) ^ 2 ≤ 2 ^ 100).trans (pow_le_pow_right₀ (by norm_num) (by norm_num)))
    exact ⟨y, hy, he (by norm_num)⟩
  · rw [bias_f64, ← pow_mul]
    exact pow_le_pow_right₀ (by norm_num) (by norm_num)

/-- `atanh` of a half, of a very small number and of two. -/
example (h : LibraryOk ext fx false P calls g u w) : (∃ y, calls "atanh" [.f (1 / 2)] = .f y ∧ |y - Real.artanh (1 / 2)| ≤ 4 / 5 * log2Bound false u w + (fmtOf false).eps * (7 * |Real.artanh (1 / 2)| + 7)) ∧
    calls "atanh" [.f (1 / 2 ^ 60)] = .f 0 ∧ calls "atanh" [.f 2] = .nan := by
  refine ⟨C76_atanh h ?_ (by norm_num) (by norm_num), C76_atanh_small h ?_, (C76_atanh_edges h).2.2.1 2 ?_ (by norm_num)⟩
  · have := FloatFmt.repr_eighths (FloatFmt.wide_fmtOf false) 4 (by norm_num)
    norm_num at this ⊢
    exact this
  · rw [eps_f64, abs_of_pos (by norm_num)]; norm_num
  · exact_mod_cast repr_nat false 2 (by norm_num)

end
end Verif

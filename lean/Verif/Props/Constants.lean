import Verif.Model.Constants
import Verif.Props.EvalReal
import Verif.Spec.RealMeaning
import Mathlib.Analysis.Complex.ExponentialBounds

/-! # C69: the evaluated constants of the generated library -/

namespace Verif
open Bd Dec

/-- The real numbers the constants stand for. -/
noncomputable def constMeaning : List (String × ℝ) := [
  ("PI", Real.pi),
  ("PI_BY_2", Real.pi / 2),
  ("PI_BY_8", Real.pi / 8),
  ("TAN_PI_BY_8", Real.tan (Real.pi / 8)),
  ("LOG2_E", Real.logb 2 (Real.exp 1)),
  ("RECIP_LOG2_E", 1 / Real.logb 2 (Real.exp 1)),
  ("RECIP_LOG2_10", 1 / Real.logb 2 10),
  ("RECIP_PI", 1 / Real.pi),
  ("RECIP_2PI", 1 / (2 * Real.pi)),
  ("SQRT_RECIP_2PI", √(1 / (2 * Real.pi)))]

section
variable {ext : BdExt} {n : ℕ}

theorem evals_int (s : String) (k : ℤ) (h : parseDec s.toList = some ⟨k, 0⟩) : EvalsTo ext n (litInt s) (k : ℝ) 0 := by
  have := C67_lit (ext := ext) (n := n) (l := .int s.toList "") (q := (k : ℚ)) (by simp [litValue, h, Dec.val])
  simpa [litInt] using this

theorem one_int : EvalsTo ext n (litInt "1") 1 0 := by simpa using evals_int "1" 1 rfl
theorem two_int : EvalsTo ext n (litInt "2") 2 0 := by simpa using evals_int "2" 2 rfl
theorem eight_int : EvalsTo ext n (litInt "8") 8 0 := by simpa using evals_int "8" 8 rfl
theorem ten_int : EvalsTo ext n (litInt "10") 10 0 := by simpa using evals_int "10" 10 rfl

/-- The sizes of the small quantities. -/
theorem unit_facts (h1 : 10 ≤ n) (h2 : n ≤ 90) :
    (0 : ℝ) < 1 / 10 ^ n ∧ (1 : ℝ) / 10 ^ n ≤ 1 / 10 ^ 10 ∧ (1 : ℝ) / 10 ^ 99 ≤ 1 / 100 * (1 / 10 ^ n) := by
  refine ⟨by positivity, ?_, ?_⟩
  · exact one_div_le_one_div_of_le (by positivity) (pow_le_pow_right₀ (by norm_num) h1)
  · have : (1 : ℝ) / 10 ^ 90 ≤ 1 / 10 ^ n := one_div_le_one_div_of_le (by positivity) (pow_le_pow_right₀ (by norm_num) h2)
    have e : (1 : ℝ) / 10 ^ 99 ≤ 1 / 100 * (1 / 10 ^ 90) := by norm_num
    linarith

/-- A quotient in numbers: everything is bounded, the result is a multiple of the unit. -/
theorem evals_div {e₁ e₂ : Expr} {v₁ v₂ k₁ k₂ lo q K : ℝ} (h1 : 10 ≤ n) (h2 : n ≤ 90)
    (a : EvalsTo ext n e₁ v₁ (k₁ * (1 / 10 ^ n))) (b : EvalsTo ext n e₂ v₂ (k₂ * (1 / 10 ^ n)))
    (hk₁ : 0 ≤ k₁) (hk₂ : 0 ≤ k₂) (hk : k₂ ≤ 1000) (hlo : 1 / 2 ≤ lo) (hv : lo ≤ v₂) (hq : |v₁ / v₂| ≤ q)
    (hK : 1.01 * (2 * (k₁ + q * k₂) / lo) + 1 / 100 * q + 1 / 2 ≤ K) :
    EvalsTo ext n (.binary e₁ .div e₂) (v₁ / v₂) (K * (1 / 10 ^ n)) := by
  obtain ⟨u0, u1, w1⟩ := unit_facts h1 h2
  have hw0 : (0 : ℝ) ≤ 1 / 10 ^ 99 := by positivity
  have hv2 : 0 < v₂ := by linarith
  have hq0 : 0 ≤ q := (abs_nonneg _).trans hq
  refine (C67_div a b hv2.ne' ?_).mono ?_
  · rw [abs_of_pos hv2]
    have h3 : k₂ * (1 / 10 ^ n) ≤ 1000 * (1 / 10 ^ 10) := by gcongr
    linarith [h3.trans (by norm_num : (1000 : ℝ) * (1 / 10 ^ 10) ≤ 1 / 4)]
  · rw [abs_of_pos hv2]
    have hw2 : (1 : ℝ) / 10 ^ 99 ≤ 1 / 100 := by norm_num
    generalize (1 : ℝ) / 10 ^ n = u at *
    generalize (1 : ℝ) / 10 ^ 99 = w at *
    have t1 : (1 + w) * (2 * (k₁ * u + |v₁ / v₂| * (k₂ * u)) / v₂) ≤ 1.01 * (2 * (k₁ * u + q * (k₂ * u)) / lo) := by
      have : (1 + w) ≤ 1.01 := by linarith
      have h0 : (0 : ℝ) < lo := by linarith
      gcongr
    have t2 : w * |v₁ / v₂| ≤ 1 / 100 * u * q := by gcongr
    calc _ ≤ 1.01 * (2 * (k₁ * u + q * (k₂ * u)) / lo) + 1 / 100 * u * q + 1 / 2 * u := by linarith
      _ = (1.01 * (2 * (k₁ + q * k₂) / lo) + 1 / 100 * q + 1 / 2) * u := by ring
      _ ≤ _ := by gcongr

theorem evals_pi (h2 : n ≤ 90) : EvalsTo ext n (.path ["PI"]) Real.pi (1 / 2 * (1 / 10 ^ n)) := C67_pi (by omega)

theorem evals_zero {e : Expr} {v : ℝ} (h : EvalsTo ext n e v 0) : EvalsTo ext n e v (0 * (1 / 10 ^ n)) := h.mono (by simp)

theorem evals_recip2pi (h1 : 10 ≤ n) (h2 : n ≤ 90) : EvalsTo ext n recip2pi (1 / (2 * Real.pi)) (1 * (1 / 10 ^ n)) := by
  have hm : EvalsTo ext n (.paren (.binary (litInt "2") .mul (.path ["PI"]))) (2 * Real.pi) (3 / 2 * (1 / 10 ^ n)) :=
    (C67_paren (C67_mul two_int (evals_pi h2))).mono (by rw [abs_two]; linarith)
  have hp := Real.pi_gt_three
  refine evals_div (lo := 6) (q := 1 / 6) h1 h2 (evals_zero one_int) hm le_rfl (by norm_num) (by norm_num) (by norm_num) (by linarith) ?_ (by norm_num)
  rw [abs_of_pos (by positivity)]
  exact one_div_le_one_div_of_le (by norm_num) (by linarith)

theorem log_two_bounds : 0.69 ≤ Real.log 2 ∧ Real.log 2 ≤ 0.7 := ⟨by linarith [Real.log_two_gt_d9], by linarith [Real.log_two_lt_d9]⟩

theorem lnErr_two : lnErr n 2 0 ≤ 4.5 * (1 / 10 ^ n) := by
  have h := log_two_bounds
  unfold lnErr
  rw [abs_of_pos (by linarith)]
  have : (0 : ℝ) < 1 / 10 ^ n := by positivity
  simp only [zero_div, add_zero]
  gcongr
  linarith

theorem lnArg_exact {v : ℝ} (hv : 0 < v) (hf : 3 * |Real.log v| + 2 ≤ ext.fuel) : LnArg ext v 0 := ⟨hv, by simpa using hf⟩

theorem evals_log2 {e : Expr} {v k lv L Q K : ℝ} (h1 : 10 ≤ n) (h2 : n ≤ 90) (a : EvalsTo ext n e v (k * (1 / 10 ^ n))) (hk : 0 ≤ k) (hk1 : k ≤ 1)
    (hv : 2 ≤ v) (hl : Real.log v ≤ lv) (hf : 3 * (lv + 1) + 2 ≤ (ext.fuel : ℝ)) (hL : (1 + 5 * (lv + 1 / 10)) + k ≤ L) (hQ : Real.logb 2 v ≤ Q)
    (hK : 1.01 * (2 * (L + Q * 4.5) / 0.69) + 1 / 100 * Q ≤ K) :
    EvalsTo ext n (.methodCall e "log" [litInt "2"]) (Real.logb 2 v) (K * (1 / 10 ^ n)) := by
  obtain ⟨u0, u1, w1⟩ := unit_facts h1 h2
  have hw0 : (0 : ℝ) ≤ 1 / 10 ^ 99 := by positivity
  have hl2 := log_two_bounds
  have hlv : 0 ≤ Real.log v := Real.log_nonneg (by linarith)
  have hl2v : Real.log 2 ≤ lv := (Real.log_le_log (by norm_num) hv).trans hl
  have hQ0 : 0 ≤ Real.logb 2 v := Real.logb_nonneg (by norm_num) (by linarith)
  have hε : k * (1 / 10 ^ n) ≤ 1 / 10 ^ 10 := by
    calc k * (1 / 10 ^ n) ≤ 1 * (1 / 10 ^ 10) := by gcongr
      _ = _ := by ring
  have hε' : k * (1 / 10 ^ n) ≤ 1 := hε.trans (by norm_num)
  have hdiv : k * (1 / 10 ^ n) / (v - k * (1 / 10 ^ n)) ≤ k * (1 / 10 ^ n) := by
    have : (0 : ℝ) ≤ k * (1 / 10 ^ n) := by positivity
    rw [div_le_iff₀ (by linarith)]
    nlinarith
  have hdiv' : k * (1 / 10 ^ n) / (v - k * (1 / 10 ^ n)) ≤ 1 / 10 := by
    refine hdiv.trans (hε.trans (by norm_num))
  have arg1 : LnArg ext v (k * (1 / 10 ^ n)) := ⟨by linarith, by rw [abs_of_nonneg hlv]; linarith⟩
  have arg2 : LnArg ext 2 0 := lnArg_exact (by norm_num) (by rw [abs_of_pos (by linarith)]; linarith)
  have e1 : lnErr n v (k * (1 / 10 ^ n)) ≤ L * (1 / 10 ^ n) := by
    unfold lnErr
    rw [abs_of_nonneg hlv]
    calc (1 + 5 * (Real.log v + k * (1 / 10 ^ n) / (v - k * (1 / 10 ^ n)))) * (1 / 10 ^ n) + k * (1 / 10 ^ n) / (v - k * (1 / 10 ^ n))
        ≤ (1 + 5 * (lv + 1 / 10)) * (1 / 10 ^ n) + k * (1 / 10 ^ n) := by gcongr
      _ = ((1 + 5 * (lv + 1 / 10)) + k) * (1 / 10 ^ n) := by ring
      _ ≤ _ := by gcongr
  have e2 := lnErr_two (n := n)
  refine (C67_log a two_int arg1 arg2 (by omega) (by omega) (by norm_num) ?_).mono ?_
  · rw [abs_of_pos (by linarith)]
    have h3 : 4.5 * (1 / (10 : ℝ) ^ n) ≤ 4.5 * (1 / 10 ^ 10) := by gcongr
    linarith [h3.trans (by norm_num : (4.5 : ℝ) * (1 / 10 ^ 10) ≤ 1 / 4)]
  · rw [abs_of_nonneg hQ0, abs_of_pos (by linarith : 0 < Real.log 2)]
    have hw2 : (1 : ℝ) / 10 ^ 99 ≤ 1 / 100 := by norm_num
    generalize lnErr n v (k * (1 / 10 ^ n)) = E1 at *
    generalize lnErr n 2 0 = E2 at *
    generalize (1 : ℝ) / 10 ^ n = u at *
    generalize (1 : ℝ) / 10 ^ 99 = w at *
    have hQ' : 0 ≤ Q := hQ0.trans hQ
    have hL0 : 0 ≤ L := by linarith
    have t1 : (1 + w) * (2 * (E1 + Real.logb 2 v * E2) / Real.log 2) ≤ 1.01 * (2 * (L * u + Q * (4.5 * u)) / 0.69) := by
      have p1 : Real.logb 2 v * E2 ≤ Q * (4.5 * u) :=
        (mul_le_mul_of_nonneg_left e2 hQ0).trans (mul_le_mul_of_nonneg_right hQ (by positivity))
      have p2 : 2 * (E1 + Real.logb 2 v * E2) / Real.log 2 ≤ 2 * (L * u + Q * (4.5 * u)) / 0.69 := by
        refine (div_le_div_of_nonneg_right (by linarith : 2 * (E1 + Real.logb 2 v * E2) ≤ 2 * (L * u + Q * (4.5 * u))) (by linarith)).trans ?_
        apply div_le_div_of_nonneg_left (by positivity) (by norm_num) hl2.1
      calc _ ≤ (1 + w) * (2 * (L * u + Q * (4.5 * u)) / 0.69) := by gcongr
        _ ≤ _ := by
          apply mul_le_mul_of_nonneg_right (by linarith) (by positivity)
    have t2 : w * Real.logb 2 v ≤ 1 / 100 * u * Q := by gcongr
    calc _ ≤ 1.01 * (2 * (L * u + Q * (4.5 * u)) / 0.69) + 1 / 100 * u * Q := by linarith
      _ = (1.01 * (2 * (L + Q * 4.5) / 0.69) + 1 / 100 * Q) * u := by ring
      _ ≤ _ := by gcongr

theorem evals_log2e (h1 : 10 ≤ n) (h2 : n ≤ 90) (hf : 20 ≤ ext.fuel) : EvalsTo ext n log2e (Real.logb 2 (Real.exp 1)) (50 * (1 / 10 ^ n)) := by
  have hexp : EvalsTo ext n (.methodCall (litInt "1") "exp" []) (Real.exp 1) (1 * (1 / 10 ^ n)) :=
    (C67_exp (B := 1) one_int le_rfl (by simp) (by omega) (by omega)).mono (by simp)
  have hl2 := log_two_bounds
  have hff : (20 : ℝ) ≤ ext.fuel := by exact_mod_cast hf
  refine evals_log2 (lv := 1) (L := 7.5) (Q := 1.5) h1 h2 hexp (by norm_num) le_rfl ?_ (by simp) (by linarith) (by norm_num) ?_ (by norm_num)
  · linarith [Real.exp_one_gt_d9]
  · rw [Real.logb, Real.log_exp, div_le_iff₀ (by linarith)]; linarith

theorem logb2_ten : 3 ≤ Real.logb 2 10 ∧ Real.logb 2 10 ≤ 4 := by
  constructor
  · rw [Real.le_logb_iff_rpow_le (by norm_num) (by norm_num)]; norm_num
  · rw [Real.logb_le_iff_le_rpow (by norm_num) (by norm_num)]; norm_num

/-- **C69** Each evaluated constant is within 60 units of the last requested digit of the number it stands for, for every digit count from 10 to 90. -/
theorem C69_constants (hs : SqrtOk ext) (hf : 20 ≤ ext.fuel) (h1 : 10 ≤ n) (h2 : n ≤ 90) :
    List.Forall₂ (fun p q => p.1 = q.1 ∧ EvalsTo ext n p.2 q.2 (60 * (1 / 10 ^ n))) constSource constMeaning := by
  have u0 : (0 : ℝ) < 1 / 10 ^ n := by positivity
  have hff : (20 : ℝ) ≤ ext.fuel := by exact_mod_cast hf
  have hp := Real.pi_gt_three
  have hp4 := Real.pi_lt_four
  have hl2 := log_two_bounds
  have mono : ∀ {e : Expr} {v k : ℝ}, EvalsTo ext n e v (k * (1 / 10 ^ n)) → k ≤ 60 → EvalsTo ext n e v (60 * (1 / 10 ^ n)) :=
    fun h hk => h.mono (by gcongr)
  have pi2 : EvalsTo ext n (.binary (.path ["PI"]) .div (litInt "2")) (Real.pi / 2) (2 * (1 / 10 ^ n)) :=
    evals_div (lo := 2) (q := 2) h1 h2 (evals_pi h2) (evals_zero two_int) (by norm_num) (by norm_num) (by norm_num) (by norm_num) le_rfl
      (by rw [abs_of_pos (by positivity)]; linarith) (by norm_num)
  have pi8 : EvalsTo ext n (.binary (.path ["PI"]) .div (litInt "8")) (Real.pi / 8) (1 * (1 / 10 ^ n)) :=
    evals_div (lo := 8) (q := 1 / 2) h1 h2 (evals_pi h2) (evals_zero eight_int) (by norm_num) (by norm_num) (by norm_num) (by norm_num) le_rfl
      (by rw [abs_of_pos (by positivity)]; linarith) (by norm_num)
  have u10 := (unit_facts h1 h2).2.1
  have tan8 : EvalsTo ext n (.methodCall (.paren (.binary (.path ["PI"]) .div (litInt "8"))) "tan" []) (Real.tan (Real.pi / 8)) (54 * (1 / 10 ^ n)) := by
    have hcos : (1 : ℝ) / 2 ≤ Real.cos (Real.pi / 8) := by
      rw [← Real.cos_pi_div_three]
      apply Real.cos_le_cos_of_nonneg_of_le_pi <;> linarith [Real.pi_pos]
    have hu : (1 : ℝ) / 10 ^ n ≤ 1 / 100 := u10.trans (by norm_num)
    refine (C67_tan (C67_paren pi8) (B := 1) le_rfl ?_ (by omega) (by omega) ?_).mono ?_
    · rw [abs_of_pos (by positivity)]; push_cast; linarith
    · rw [abs_of_pos (by linarith), show (2 : ℝ) / 10 ^ n = 2 * (1 / 10 ^ n) by ring]; linarith
    · rw [abs_of_pos (by linarith)]
      generalize Real.cos (Real.pi / 8) = C at *
      generalize (1 : ℝ) / 10 ^ n = u at *
      have : (1 / 3 : ℝ) ^ 2 ≤ (C - 1 * u) ^ 2 := pow_le_pow_left₀ (by norm_num) (by linarith) 2
      rw [div_le_iff₀ (by nlinarith)]
      nlinarith
  have l2e := evals_log2e (ext := ext) (n := n) h1 h2 hf
  have hlog : Real.logb 2 (Real.exp 1) = 1 / Real.log 2 := by rw [Real.logb, Real.log_exp]
  have hlog1 : (1.4 : ℝ) ≤ Real.logb 2 (Real.exp 1) := by rw [hlog, le_div_iff₀ (by linarith)]; linarith
  have r2e : EvalsTo ext n (.binary (litInt "1") .div log2e) (1 / Real.logb 2 (Real.exp 1)) (60 * (1 / 10 ^ n)) :=
    evals_div (lo := 1.4) (q := 0.72) h1 h2 (evals_zero one_int) l2e (by norm_num) (by norm_num) (by norm_num) (by norm_num) hlog1
      (by rw [abs_of_pos (by positivity), div_le_iff₀ (by linarith)]; linarith) (by norm_num)
  obtain ⟨t3, t4⟩ := logb2_ten
  have l10 : EvalsTo ext n (.methodCall (litInt "10") "log" [litInt "2"]) (Real.logb 2 10) (110 * (1 / 10 ^ n)) := by
    have hl10 : Real.log 10 ≤ 2.8 := by
      have : Real.log 10 = Real.logb 2 10 * Real.log 2 := by rw [Real.logb, div_mul_cancel₀]; linarith
      rw [this]; nlinarith
    refine evals_log2 (lv := 2.8) (k := 0) (L := 16) (Q := 4) h1 h2 (evals_zero ten_int) le_rfl (by norm_num) (by norm_num) hl10 (by linarith) (by norm_num) t4 (by norm_num)
  have r10 : EvalsTo ext n (.binary (litInt "1") .div (.methodCall (litInt "10") "log" [litInt "2"])) (1 / Real.logb 2 10) (60 * (1 / 10 ^ n)) :=
    evals_div (lo := 3) (q := 1 / 3) h1 h2 (evals_zero one_int) l10 (by norm_num) (by norm_num) (by norm_num) (by norm_num) t3
      (by rw [abs_of_pos (by positivity)]; exact one_div_le_one_div_of_le (by norm_num) t3) (by norm_num)
  have rpi : EvalsTo ext n (.binary (litInt "1") .div (.path ["PI"])) (1 / Real.pi) (1 * (1 / 10 ^ n)) :=
    evals_div (lo := 3) (q := 1 / 3) h1 h2 (evals_zero one_int) (evals_pi h2) (by norm_num) (by norm_num) (by norm_num) (by norm_num) hp.le
      (by rw [abs_of_pos (by positivity)]; exact one_div_le_one_div_of_le (by norm_num) hp.le) (by norm_num)
  have r2pi := evals_recip2pi (ext := ext) (n := n) h1 h2
  have root : EvalsTo ext n (.methodCall (.paren recip2pi) "sqrt" []) (√(1 / (2 * Real.pi))) (4 * (1 / 10 ^ n)) := by
    have hlo : (1 : ℝ) / 9 ≤ 1 / (2 * Real.pi) := one_div_le_one_div_of_le (by positivity) (by linarith)
    have hhi : 1 / (2 * Real.pi) ≤ 1 / 6 := one_div_le_one_div_of_le (by positivity) (by linarith)
    have hu : (1 : ℝ) / 10 ^ n ≤ 1 / 100 := u10.trans (by norm_num)
    have hw : (1 : ℝ) / 10 ^ 98 ≤ 1 / 10 * (1 / 10 ^ n) := by
      have := (unit_facts h1 h2).2.2
      have e : (1 : ℝ) / 10 ^ 98 = 10 * (1 / 10 ^ 99) := by norm_num
      rw [e]; linarith
    refine (C67_sqrt hs (C67_paren r2pi) (by linarith) (by positivity)).mono ?_
    have hs1 : 1 / 3 ≤ √(1 / (2 * Real.pi)) := Real.le_sqrt_of_sq_le (by linarith)
    have hs2 : √(1 / (2 * Real.pi) + 1 * (1 / 10 ^ n)) ≤ 1 := by rw [Real.sqrt_le_left (by norm_num)]; linarith
    have t1 : 1 / 10 ^ 98 * √(1 / (2 * Real.pi) + 1 * (1 / 10 ^ n)) ≤ 1 / 10 * (1 / 10 ^ n) * 1 := by gcongr
    have t2 : 1 * (1 / 10 ^ n) / √(1 / (2 * Real.pi)) ≤ 1 * (1 / 10 ^ n) / (1 / 3) := by gcongr
    generalize (1 : ℝ) / 10 ^ n = u at *
    have e3 : 1 * u / (1 / 3) = 3 * u := by ring
    linarith
  unfold constSource constMeaning
  refine .cons ⟨rfl, mono (evals_pi h2) (by norm_num)⟩ (.cons ⟨rfl, mono pi2 (by norm_num)⟩ (.cons ⟨rfl, mono pi8 (by norm_num)⟩
    (.cons ⟨rfl, mono tan8 (by norm_num)⟩ (.cons ⟨rfl, mono l2e (by norm_num)⟩ (.cons ⟨rfl, r2e⟩ (.cons ⟨rfl, r10⟩
    (.cons ⟨rfl, mono rpi (by norm_num)⟩ (.cons ⟨rfl, mono r2pi (by norm_num)⟩ (.cons ⟨rfl, mono root (by norm_num)⟩ .nil)))))))))

/-- **C69** What ends up in the generated code, at 20 digits for 32-bit floats and 40 digits for 64-bit floats: a literal whose value is that close. -/
theorem C69_constants_in_code (hs : SqrtOk ext) (hf : 20 ≤ ext.fuel) (b32 : Bool) (F : FloatFmt) (calls : String → List RV → RV) (env : Name → RV) :
    List.Forall₂ (fun p q => p.1 = q.1 ∧ ∃ l y, eval ext (configDigits b32) p.2 = .ok (.lit l) ∧
      (RExpr.lit l).denote (realInterp F calls) env = .f y ∧ |y - q.2| ≤ 60 / 10 ^ configDigits b32) constSource constMeaning := by
  have hd : 10 ≤ configDigits b32 ∧ configDigits b32 ≤ 90 := by cases b32 <;> decide
  have h := C69_constants (ext := ext) (n := configDigits b32) hs hf hd.1 hd.2
  have hsrc : ∀ p ∈ constSource, (match p.2 with | .path _ | .binary _ .div _ | .methodCall _ _ _ => True | _ => False) := by
    unfold constSource log2e recip2pi; simp
  have hfield : ∀ p ∈ constSource, noField p.2 = true := by decide
  revert h hsrc hfield
  generalize constSource = S
  generalize constMeaning = M
  intro h
  induction h with
  | nil => intros; exact .nil
  | @cons p q ps qs hpq _ ih =>
    intro h1 h3
    refine .cons ⟨hpq.1, ?_⟩ (ih (fun r hr => h1 r (List.mem_cons_of_mem _ hr)) (fun r hr => h3 r (List.mem_cons_of_mem _ hr)))
    obtain ⟨t, d, e1, e2, e3⟩ := hpq.2
    have hp := h1 p List.mem_cons_self
    have key : ∃ r : Dec, t = exprOfDec r := by
      revert hp e1
      cases p.2 with
      | path x =>
        intro e1 _
        rw [eval] at e1
        split at e1
        · rw [Res.bind_eq_ok] at e1
          obtain ⟨r, _, e1⟩ := e1; cases e1; exact ⟨r, rfl⟩
        · cases e1
      | methodCall a m as =>
        intro e1 _
        rw [eval] at e1
        simp only [Res.bind_eq_ok] at e1
        obtain ⟨_, _, _, _, _, _, _, _, r, _, e1⟩ := e1; cases e1; exact ⟨r, rfl⟩
      | binary a op b =>
        cases op with
        | div =>
          intro e1 _
          rw [eval] at e1
          simp only [Res.bind_eq_ok] at e1
          obtain ⟨_, _, _, _, e1⟩ := e1
          split at e1
          · simp only [Res.bind_eq_ok] at e1
            obtain ⟨_, _, _, _, e1⟩ := e1
            rw [evalBinop, Res.bind_eq_ok] at e1
            obtain ⟨r, _, e1⟩ := e1
            cases e1; exact ⟨_, rfl⟩
          · cases e1
        | _ => intro _ hp; exact hp.elim
      | _ => intro _ hp; exact hp.elim
    obtain ⟨r, rfl⟩ := key
    refine ⟨_, d.val, e1, ?_, e3.trans (le_of_eq (by ring))⟩
    have : litValue (.float (displayDec r) "") = some d.val := by
      rw [exprToDec_exprOfDec] at e2
      cases e2
      rw [litValue, parseDec_displayDec]; rfl
    simp [RExpr.denote, realInterp, litRV, this]

end

example : SqrtOk goodExt ∧ 20 ≤ goodExt.fuel := ⟨goodExt_ok, by decide⟩

end Verif

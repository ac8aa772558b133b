import Verif.Lemmas.Eval
import Verif.Props.Eval
import Verif.Props.LogPow
import Verif.Props.Normal

/-!
# C67: what evaluating a nested expression computes

`EvalsTo ext n e v ε` says that `eval` of `e` at `n` digits returns a numeric literal within `ε` of the real number `v`.  There is one rule for
each construct of the language; together they bound the error of any nesting.
-/

namespace Verif
open Bd Dec

/-- `eval` returns a number within `ε` of `v`. -/
def EvalsTo (ext : BdExt) (n : ℕ) (e : Expr) (v ε : ℝ) : Prop :=
  ∃ t d, eval ext n e = .ok t ∧ exprToDec t = .ok d ∧ |(d.val : ℝ) - v| ≤ ε

/-- Several expressions at once. -/
def EvalsAll (ext : BdExt) (n : ℕ) : List Expr → List (ℝ × ℝ) → Prop
  | [], [] => True
  | e :: es, p :: ps => EvalsTo ext n e p.1 p.2 ∧ EvalsAll ext n es ps
  | _, _ => False

section
variable {ext : BdExt} {n : ℕ} {e e₁ e₂ : Expr} {v v₁ v₂ ε ε₁ ε₂ : ℝ}

theorem EvalsTo.mono (h : EvalsTo ext n e v ε) {ε' : ℝ} (hε : ε ≤ ε') : EvalsTo ext n e v ε' := by
  obtain ⟨t, d, h1, h2, h3⟩ := h
  exact ⟨t, d, h1, h2, h3.trans hε⟩

/-- **C67** A literal has its own value, exactly. -/
theorem C67_lit {l : Lit} {q : ℚ} (h : litValue l = some q) : EvalsTo ext n (.lit l) q 0 := by
  obtain ⟨d, h1, h2⟩ := litValue_exprToDec l q h
  exact ⟨.lit l, d, by rw [eval]; rfl, h1, by rw [h2]; simp⟩

/-- **C67** -/
theorem C67_paren (h : EvalsTo ext n e v ε) : EvalsTo ext n (.paren e) v ε := by
  obtain ⟨t, d, h1, h2, h3⟩ := h
  exact ⟨t, d, by rw [eval]; exact h1, h2, h3⟩

/-- **C67** -/
theorem C67_neg (h : EvalsTo ext n e v ε) : EvalsTo ext n (.unary .neg e) (-v) ε := by
  obtain ⟨t, d, h1, h2, h3⟩ := h
  refine ⟨_, _, eval_neg h1 h2, exprToDec_exprOfDec _, ?_⟩
  rw [val_canon, Dec.val_neg]; push_cast
  rwa [show -(d.val : ℝ) - -v = -(d.val - v) by ring, abs_neg]

/-- **C67** -/
theorem C67_add (h₁ : EvalsTo ext n e₁ v₁ ε₁) (h₂ : EvalsTo ext n e₂ v₂ ε₂) : EvalsTo ext n (.binary e₁ .add e₂) (v₁ + v₂) (ε₁ + ε₂) := by
  obtain ⟨t₁, d₁, a1, a2, a3⟩ := h₁
  obtain ⟨t₂, d₂, b1, b2, b3⟩ := h₂
  refine ⟨_, _, by rw [eval_binary a1 b1 a2 b2]; rfl, exprToDec_exprOfDec _, ?_⟩
  rw [val_canon, Dec.val_add]; push_cast
  rw [show (d₁.val : ℝ) + d₂.val - (v₁ + v₂) = (d₁.val - v₁) + (d₂.val - v₂) by ring]
  exact (abs_add_le _ _).trans (add_le_add a3 b3)

/-- **C67** -/
theorem C67_sub (h₁ : EvalsTo ext n e₁ v₁ ε₁) (h₂ : EvalsTo ext n e₂ v₂ ε₂) : EvalsTo ext n (.binary e₁ .sub e₂) (v₁ - v₂) (ε₁ + ε₂) := by
  obtain ⟨t₁, d₁, a1, a2, a3⟩ := h₁
  obtain ⟨t₂, d₂, b1, b2, b3⟩ := h₂
  refine ⟨_, _, by rw [eval_binary a1 b1 a2 b2]; rfl, exprToDec_exprOfDec _, ?_⟩
  rw [val_canon, Dec.val_sub]; push_cast
  rw [show (d₁.val : ℝ) - d₂.val - (v₁ - v₂) = (d₁.val - v₁) - (d₂.val - v₂) by ring]
  exact (abs_sub _ _).trans (add_le_add a3 b3)

theorem round_real (d : Dec) : |((round d n).val : ℝ) - d.val| ≤ 1 / 2 * (1 / 10 ^ n) := by
  have h := C01_round_error d n (by omega)
  have h2 : ((|(round d n).val - d.val| : ℚ) : ℝ) ≤ ((1 / 2 * 10 ^ (-(n : ℤ)) : ℚ) : ℝ) := by exact_mod_cast h
  push_cast at h2
  rw [zpow_neg, zpow_natCast] at h2
  simpa [one_div] using h2

/-- **C67** A product is rounded once. -/
theorem C67_mul (h₁ : EvalsTo ext n e₁ v₁ ε₁) (h₂ : EvalsTo ext n e₂ v₂ ε₂) :
    EvalsTo ext n (.binary e₁ .mul e₂) (v₁ * v₂) (|v₁| * ε₂ + |v₂| * ε₁ + ε₁ * ε₂ + 1 / 2 * (1 / 10 ^ n)) := by
  obtain ⟨t₁, d₁, a1, a2, a3⟩ := h₁
  obtain ⟨t₂, d₂, b1, b2, b3⟩ := h₂
  refine ⟨_, _, by rw [eval_binary a1 b1 a2 b2]; rfl, exprToDec_exprOfDec _, ?_⟩
  rw [val_canon]
  have hr := round_real (n := n) (d₁ * d₂)
  rw [Dec.val_mul] at hr
  push_cast at hr
  have h0 : 0 ≤ ε₁ := (abs_nonneg _).trans a3
  have hm : |(d₁.val : ℝ) * d₂.val - v₁ * v₂| ≤ |v₁| * ε₂ + |v₂| * ε₁ + ε₁ * ε₂ := by
    rw [show (d₁.val : ℝ) * d₂.val - v₁ * v₂ = v₁ * (d₂.val - v₂) + v₂ * (d₁.val - v₁) + (d₁.val - v₁) * (d₂.val - v₂) by ring]
    refine (abs_add_le _ _).trans (add_le_add ((abs_add_le _ _).trans (add_le_add ?_ ?_)) ?_) <;> rw [abs_mul] <;> gcongr
  linarith [abs_sub_le ((round (d₁ * d₂) n).val : ℝ) (d₁.val * d₂.val) (v₁ * v₂)]

/-- **C67** A quotient keeps 100 digits and is then rounded. -/
theorem C67_div (h₁ : EvalsTo ext n e₁ v₁ ε₁) (h₂ : EvalsTo ext n e₂ v₂ ε₂) (h0 : v₂ ≠ 0) (hε : ε₂ ≤ |v₂| / 2) :
    EvalsTo ext n (.binary e₁ .div e₂) (v₁ / v₂)
      ((1 + 1 / 10 ^ 99) * (2 * (ε₁ + |v₁ / v₂| * ε₂) / |v₂|) + 1 / 10 ^ 99 * |v₁ / v₂| + 1 / 2 * (1 / 10 ^ n)) := by
  obtain ⟨t₁, d₁, a1, a2, a3⟩ := h₁
  obtain ⟨t₂, d₂, b1, b2, b3⟩ := h₂
  obtain ⟨q, hq, he⟩ := div_error h0 a3 b3 hε
  refine ⟨_, _, by rw [eval_binary a1 b1 a2 b2, evalBinop, hq]; rfl, exprToDec_exprOfDec _, ?_⟩
  rw [val_canon]
  have hr := round_real (n := n) q
  linarith [abs_sub_le ((round q n).val : ℝ) q.val (v₁ / v₂)]

/-- **C67** The constant `PI`. -/
theorem C67_pi (hn : n < 100) : EvalsTo ext n (.path ["PI"]) Real.pi (1 / 2 * (1 / 10 ^ n)) := by
  obtain ⟨d, h1, _, h2⟩ := C29_pi_correctly_rounded ext n hn
  refine ⟨exprOfDec d, _, by rw [eval, h1]; rfl, exprToDec_exprOfDec _, ?_⟩
  rw [val_canon]
  refine h2.le.trans (le_of_eq ?_); ring

/-! ## Methods without argument -/

theorem eval_method0 {m : String} {t : Expr} {d r : Dec} (h1 : eval ext n e = .ok t) (h2 : exprToDec t = .ok d)
    (h3 : evalMethod ext n m d [] = .ok r) : eval ext n (.methodCall e m []) = .ok (exprOfDec r) := by
  rw [eval, h1]
  simp only [evalArgs, Res.ok_bind, h2]
  show (do let d ← evalMethod ext n m d []; pure (exprOfDec d)) = _
  rw [h3]; rfl

theorem evalsTo_method0 {m : String} (h : EvalsTo ext n e v ε) {f : ℝ → ℝ} {δ : ℝ}
    (hf : ∀ d : Dec, |(d.val : ℝ) - v| ≤ ε → ∃ r, evalMethod ext n m d [] = .ok r ∧ |(r.val : ℝ) - f v| ≤ δ) :
    EvalsTo ext n (.methodCall e m []) (f v) δ := by
  obtain ⟨t, d, h1, h2, h3⟩ := h
  obtain ⟨r, h4, h5⟩ := hf d h3
  exact ⟨_, _, eval_method0 h1 h2 h4, exprToDec_exprOfDec _, by rwa [val_canon]⟩

theorem abs_le_of_near {d v ε B : ℝ} (h : |d - v| ≤ ε) (hB : |v| + ε ≤ B) : |d| ≤ B := by
  have := abs_sub_abs_le_abs_sub d v
  linarith

theorem near_trans {a b c δ ε : ℝ} (h1 : |a - b| ≤ δ) (h2 : |b - c| ≤ ε) : |a - c| ≤ δ + ε := (abs_sub_le _ _ _).trans (add_le_add h1 h2)

theorem sin_lip (a b : ℝ) : |Real.sin a - Real.sin b| ≤ |a - b| := by
  rw [Real.sin_sub_sin, abs_mul, abs_mul, abs_two]
  have h1 : |Real.sin ((a - b) / 2)| ≤ |(a - b) / 2| := Real.abs_sin_le_abs
  have h2 := Real.abs_cos_le_one ((a + b) / 2)
  rw [abs_div, abs_two] at h1
  calc 2 * |Real.sin ((a - b) / 2)| * |Real.cos ((a + b) / 2)| ≤ 2 * (|a - b| / 2) * 1 := by gcongr
    _ = _ := by ring

theorem cos_lip (a b : ℝ) : |Real.cos a - Real.cos b| ≤ |a - b| := by
  rw [← Real.sin_pi_div_two_sub, ← Real.sin_pi_div_two_sub]
  refine (sin_lip _ _).trans (le_of_eq ?_)
  rw [show Real.pi / 2 - a - (Real.pi / 2 - b) = -(a - b) by ring, abs_neg]

/-- **C67** -/
theorem C67_sin (h : EvalsTo ext n e v ε) {B : ℕ} (hB : 1 ≤ B) (hv : |v| + ε ≤ B) (hn : B + 2 ≤ n) (hn2 : n + B ≤ 98) :
    EvalsTo ext n (.methodCall e "sin" []) (Real.sin v) (1 / 10 ^ n + ε) := by
  refine evalsTo_method0 h fun d hd => ?_
  have hb : |d.val| ≤ (B : ℚ) := by have := abs_le_of_near hd hv; exact_mod_cast this
  obtain ⟨r, h1, h2⟩ := C24_sin_accurate d n B hB hb hn hn2
  exact ⟨r, h1, near_trans h2.le ((sin_lip _ _).trans hd)⟩

/-- **C67** -/
theorem C67_cos (h : EvalsTo ext n e v ε) {B : ℕ} (hB : 1 ≤ B) (hv : |v| + ε ≤ B) (hn : B + 2 ≤ n) (hn2 : n + B ≤ 98) :
    EvalsTo ext n (.methodCall e "cos" []) (Real.cos v) (1 / 10 ^ n + ε) := by
  refine evalsTo_method0 h fun d hd => ?_
  have hb : |d.val| ≤ (B : ℚ) := by have := abs_le_of_near hd hv; exact_mod_cast this
  obtain ⟨r, h1, h2⟩ := C24_cos_accurate d n B hB hb hn hn2
  exact ⟨r, h1, near_trans h2.le ((cos_lip _ _).trans hd)⟩

/-- **C67** -/
theorem C67_exp (h : EvalsTo ext n e v ε) {B : ℕ} (hB : 1 ≤ B) (hv : |v| + ε ≤ B) (hn : B + 2 ≤ n) (hn2 : n + B ≤ 98) :
    EvalsTo ext n (.methodCall e "exp" []) (Real.exp v) (1 / 10 ^ n + Real.exp B * ε) := by
  refine evalsTo_method0 h fun d hd => ?_
  have hb' := abs_le_of_near hd hv
  have hb : |d.val| ≤ (B : ℚ) := by exact_mod_cast hb'
  obtain ⟨r, h1, h2⟩ := C23_exp_accurate d n B hB hb hn hn2
  have hε : 0 ≤ ε := (abs_nonneg _).trans hd
  refine ⟨r, h1, near_trans h2.le ((exp_lipschitz (abs_le.1 hb').2 ?_).trans ?_)⟩
  · linarith [le_abs_self v]
  · gcongr

theorem arctan_lip (a b : ℝ) : |Real.arctan a - Real.arctan b| ≤ |a - b| := by
  have h := Convex.norm_image_sub_le_of_norm_deriv_le (f := Real.arctan) (s := Set.univ) (x := b) (y := a) (C := 1)
    (fun x _ => Real.differentiableAt_arctan x)
    (fun x _ => by
      rw [Real.deriv_arctan, Real.norm_eq_abs, abs_of_pos (by positivity), div_le_one (by positivity)]
      nlinarith [sq_nonneg x]) convex_univ (Set.mem_univ _) (Set.mem_univ _)
  simpa using h

/-- **C67** -/
theorem C67_atan (hs : SqrtOk ext) (hf : 3 ≤ ext.fuel) (h : EvalsTo ext n e v ε) (h3 : 3 ≤ n) (h95 : n ≤ 95) :
    EvalsTo ext n (.methodCall e "atan" []) (Real.arctan v) (1 / 10 ^ n + ε) := by
  refine evalsTo_method0 h fun d hd => ?_
  obtain ⟨r, h1, h2⟩ := C25_atan_accurate ext hs hf d n h3 h95
  exact ⟨r, h1, near_trans h2.le ((arctan_lip _ _).trans hd)⟩

theorem log_lip {a v ε : ℝ} (h : |a - v| ≤ ε) (hv : ε < v) : 0 < a ∧ |Real.log a - Real.log v| ≤ ε / (v - ε) := by
  have h' := abs_le.1 h
  have hε : 0 ≤ ε := (abs_nonneg _).trans h
  have hvp : 0 < v := by linarith
  have ha : 0 < a := by linarith
  have hd : 0 < v - ε := by linarith
  refine ⟨ha, ?_⟩
  rw [abs_le]
  constructor
  · have h1 := Real.log_le_sub_one_of_pos (div_pos hvp ha)
    rw [Real.log_div hvp.ne' ha.ne'] at h1
    have h2 : v / a - 1 ≤ ε / (v - ε) := by
      rw [div_sub_one ha.ne']
      by_cases hav : v ≤ a
      · exact (div_nonpos_of_nonpos_of_nonneg (by linarith) ha.le).trans (by positivity)
      · push Not at hav
        gcongr <;> linarith
    linarith
  · have h1 := Real.log_le_sub_one_of_pos (div_pos ha hvp)
    rw [Real.log_div ha.ne' hvp.ne'] at h1
    have h2 : a / v - 1 ≤ ε / (v - ε) := by
      rw [div_sub_one hvp.ne']
      gcongr <;> linarith
    linarith

/-- Bound on the decimal logarithm near `v`. -/
theorem ln_near {d : Dec} (hd : |(d.val : ℝ) - v| ≤ ε) (hv : ε < v) (h3 : 3 ≤ n) (h97 : n ≤ 97)
    (hf : 3 * (|Real.log v| + ε / (v - ε)) + 2 ≤ ext.fuel) :
    ∃ r, Bd.ln ext d n = .ok (some r) ∧
      |(r.val : ℝ) - Real.log v| ≤ (1 + 5 * (|Real.log v| + ε / (v - ε))) * (1 / 10 ^ n) + ε / (v - ε) := by
  obtain ⟨h0, h1⟩ := log_lip hd hv
  have hle : |Real.log (d.val : ℝ)| ≤ |Real.log v| + ε / (v - ε) := by
    have := abs_sub_abs_le_abs_sub (Real.log (d.val : ℝ)) (Real.log v)
    linarith
  obtain ⟨r, h4, h5⟩ := C27_ln_accurate ext d n (by exact_mod_cast h0) h3 h97 (by linarith)
  refine ⟨r, h4, near_trans (h5.le.trans ?_) h1⟩
  gcongr

/-- **C67** -/
theorem C67_ln (h : EvalsTo ext n e v ε) (hv : ε < v) (h3 : 3 ≤ n) (h97 : n ≤ 97) (hf : 3 * (|Real.log v| + ε / (v - ε)) + 2 ≤ ext.fuel) :
    EvalsTo ext n (.methodCall e "ln" []) (Real.log v) ((1 + 5 * (|Real.log v| + ε / (v - ε))) * (1 / 10 ^ n) + ε / (v - ε)) := by
  refine evalsTo_method0 h fun d hd => ?_
  obtain ⟨r, h4, h5⟩ := ln_near hd hv h3 h97 hf
  exact ⟨r, by simp only [evalMethod, h4]; rfl, h5⟩

/-- **C67** -/
theorem C67_sqrt (hs : SqrtOk ext) (h : EvalsTo ext n e v ε) (hv : ε ≤ v) (hv0 : 0 < v) :
    EvalsTo ext n (.methodCall e "sqrt" []) (√v) (1 / 10 ^ 98 * √(v + ε) + ε / √v) := by
  refine evalsTo_method0 h fun d hd => ?_
  have hd' := abs_le.1 hd
  have hd0 : (0 : ℝ) ≤ d.val := by linarith
  obtain ⟨r, h1, h2⟩ := hs.ok d (by exact_mod_cast hd0)
  refine ⟨r, by simp only [evalMethod, h1]; rfl, near_trans (h2.trans ?_) ?_⟩
  · gcongr; linarith
  · have hsv : 0 < √v := Real.sqrt_pos.2 hv0
    have e1 : (√(d.val : ℝ) - √v) * (√(d.val : ℝ) + √v) = d.val - v := by
      have := Real.mul_self_sqrt hd0; have := Real.mul_self_sqrt hv0.le; nlinarith
    have h3 : |√(d.val : ℝ) - √v| * √v ≤ ε := by
      have : |√(d.val : ℝ) - √v| * (√(d.val : ℝ) + √v) ≤ ε := by
        rw [← abs_of_nonneg (by positivity : (0 : ℝ) ≤ √(d.val : ℝ) + √v), ← abs_mul, e1]; exact hd
      refine le_trans ?_ this
      gcongr
      linarith [Real.sqrt_nonneg (d.val : ℝ)]
    rwa [le_div_iff₀ hsv]

/-- **C67** -/
theorem C67_abs (h : EvalsTo ext n e v ε) : EvalsTo ext n (.methodCall e "abs" []) |v| ε := by
  refine evalsTo_method0 (f := fun v => |v|) h fun d hd => ⟨_, rfl, ?_⟩
  rw [Dec.val_abs]; push_cast
  exact (abs_abs_sub_abs_le_abs_sub _ _).trans hd

/-- **C67** The sign is exact as soon as the argument is known better than its size. -/
theorem C67_signum (h : EvalsTo ext n e v ε) (hv : ε < |v|) : EvalsTo ext n (.methodCall e "signum" []) (SignType.sign v : ℝ) 0 := by
  refine evalsTo_method0 (f := fun v => (SignType.sign v : ℝ)) h fun d hd => ⟨_, rfl, ?_⟩
  rw [Dec.val_signum]
  have hd' := abs_le.1 hd
  rcases lt_trichotomy v 0 with h0 | h0 | h0
  · rw [abs_of_neg h0] at hv
    have : (d.val : ℝ) < 0 := by linarith
    have hd0 : d.val < 0 := by exact_mod_cast this
    rw [if_neg (by linarith), if_neg hd0.ne]
    simp [sign_neg h0]
  · subst h0; rw [abs_zero] at hv; linarith [(abs_nonneg _).trans hd]
  · rw [abs_of_pos h0] at hv
    have : 0 < (d.val : ℝ) := by linarith
    have hd0 : 0 < d.val := by exact_mod_cast this
    rw [if_pos hd0]
    simp [sign_pos h0]

/-- **C67** `round()` of an exactly known number is a nearest integer, ties away from zero. -/
theorem C67_round {q : ℚ} (h : EvalsTo ext n e q 0) : ∃ r : ℚ, IsRounded 0 q r ∧ EvalsTo ext n (.methodCall e "round" []) r 0 := by
  obtain ⟨t, d, h1, h2, h3⟩ := h
  have hd : d.val = q := by
    have := abs_eq_zero.1 (le_antisymm h3 (abs_nonneg _))
    have := sub_eq_zero.1 this
    exact_mod_cast this
  refine ⟨(round d 0).val, ?_, ⟨_, _, eval_method0 h1 h2 rfl, exprToDec_exprOfDec _, by rw [val_canon]; simp⟩⟩
  have := C01_round_nearest_ties_away d 0 le_rfl
  rw [← hd]
  exact this.2

/-! ## Functions with a restricted domain -/

/-- **C67** -/
theorem C67_tan (h : EvalsTo ext n e v ε) {B : ℕ} (hB : 1 ≤ B) (hv : |v| + ε ≤ B) (hn : B + 2 ≤ n) (hn2 : n + B ≤ 98)
    (hc : 2 / 10 ^ n + ε ≤ |Real.cos v|) :
    EvalsTo ext n (.methodCall e "tan" []) (Real.tan v) ((5 * (1 / 10 ^ n) + ε) / (|Real.cos v| - ε) ^ 2) := by
  refine evalsTo_method0 h fun d hd => ?_
  have hε : 0 ≤ ε := (abs_nonneg _).trans hd
  have hb : |d.val| ≤ (B : ℚ) := by have := abs_le_of_near hd hv; exact_mod_cast this
  have hcd : |Real.cos v| - ε ≤ |Real.cos (d.val : ℝ)| := by
    have h1 := cos_lip v d.val
    rw [abs_sub_comm v] at h1
    linarith [abs_sub_abs_le_abs_sub (Real.cos v) (Real.cos (d.val : ℝ))]
  obtain ⟨r, h1, h2⟩ := C64_tan_accurate d n B hB hb hn hn2 (by linarith)
  refine ⟨r, h1, ?_⟩
  have hu : (0 : ℝ) < 2 / 10 ^ n := by positivity
  have hk : 0 < |Real.cos v| - ε := by linarith
  have hcv : Real.cos v ≠ 0 := by intro h0; rw [h0, abs_zero] at hk; linarith
  have hcd0 : Real.cos (d.val : ℝ) ≠ 0 := by intro h0; rw [h0, abs_zero] at hcd; linarith
  have h3 : |Real.tan (d.val : ℝ) - Real.tan v| ≤ ε / (|Real.cos v| - ε) ^ 2 := by
    have e1 : Real.tan (d.val : ℝ) - Real.tan v = Real.sin (d.val - v) / (Real.cos d.val * Real.cos v) := by
      rw [Real.tan_eq_sin_div_cos, Real.tan_eq_sin_div_cos, Real.sin_sub]; field_simp
    rw [e1, abs_div, abs_mul]
    have h4 : |Real.sin ((d.val : ℝ) - v)| ≤ ε := Real.abs_sin_le_abs.trans hd
    have h5 : (|Real.cos v| - ε) ^ 2 ≤ |Real.cos (d.val : ℝ)| * |Real.cos v| := by
      rw [sq]; gcongr; linarith
    gcongr
  have h6 : 5 / Real.cos (d.val : ℝ) ^ 2 * (1 / 10 ^ n) ≤ 5 * (1 / 10 ^ n) / (|Real.cos v| - ε) ^ 2 := by
    rw [div_mul_eq_mul_div, ← sq_abs (Real.cos (d.val : ℝ))]
    gcongr
  refine (near_trans (h2.trans h6) h3).trans (le_of_eq ?_)
  ring

theorem arcsin_lip {a b r : ℝ} (ha : |a| ≤ r) (hb : |b| ≤ r) (hr : r < 1) : |Real.arcsin a - Real.arcsin b| ≤ 1 / √(1 - r ^ 2) * |a - b| := by
  have hr0 : 0 ≤ r := (abs_nonneg _).trans ha
  have h := Convex.norm_image_sub_le_of_norm_deriv_le (f := Real.arcsin) (s := Set.Icc (-r) r) (x := b) (y := a) (C := 1 / √(1 - r ^ 2))
    (fun x hx => Real.differentiableAt_arcsin.2 ⟨by intro h; rw [h] at hx; linarith [hx.1], by intro h; rw [h] at hx; linarith [hx.2]⟩)
    (fun x hx => by
      rw [Real.deriv_arcsin, Real.norm_eq_abs, abs_of_nonneg (by positivity)]
      have hx2 : x ^ 2 ≤ r ^ 2 := sq_le_sq' hx.1 hx.2
      have : 0 < 1 - r ^ 2 := by nlinarith
      apply one_div_le_one_div_of_le (Real.sqrt_pos.2 this)
      exact Real.sqrt_le_sqrt (by linarith)) (convex_Icc _ _) (abs_le.1 hb) (abs_le.1 ha)
  simpa using h

theorem arcsin_near {d v ε : ℝ} (hd : |d - v| ≤ ε) (hv : |v| + ε < 1 ∨ ε = 0 ∧ |v| ≤ 1) :
    |d| ≤ 1 ∧ |Real.arcsin d - Real.arcsin v| ≤ ε / √(1 - (|v| + ε) ^ 2) := by
  have hε : 0 ≤ ε := (abs_nonneg _).trans hd
  rcases hv with hv | ⟨h0, hv⟩
  · have hdr : |d| ≤ |v| + ε := abs_le_of_near hd le_rfl
    refine ⟨by linarith, (arcsin_lip hdr (by linarith : |v| ≤ |v| + ε) hv).trans ?_⟩
    rw [div_mul_eq_mul_div, one_mul]
    gcongr
  · subst h0
    have : d = v := sub_eq_zero.1 (abs_eq_zero.1 (le_antisymm hd (abs_nonneg _)))
    subst this
    exact ⟨hv, by simp⟩

/-- **C67** -/
theorem C67_asin (hs : SqrtOk ext) (hf : 3 ≤ ext.fuel) (h : EvalsTo ext n e v ε) (hv : |v| + ε < 1 ∨ ε = 0 ∧ |v| ≤ 1) (h4 : 4 ≤ n) (h94 : n ≤ 94) :
    EvalsTo ext n (.methodCall e "asin" []) (Real.arcsin v) (1 / 10 ^ n + ε / √(1 - (|v| + ε) ^ 2)) := by
  refine evalsTo_method0 h fun d hd => ?_
  obtain ⟨h1, h2⟩ := arcsin_near hd hv
  obtain ⟨r, h3, h5⟩ := C26_asin_accurate ext hs hf d n (by exact_mod_cast h1) h4 h94
  exact ⟨r, h3, near_trans h5.le h2⟩

/-- **C67** -/
theorem C67_acos (hs : SqrtOk ext) (hf : 3 ≤ ext.fuel) (h : EvalsTo ext n e v ε) (hv : |v| + ε < 1 ∨ ε = 0 ∧ |v| ≤ 1) (h4 : 4 ≤ n) (h94 : n ≤ 94) :
    EvalsTo ext n (.methodCall e "acos" []) (Real.arccos v) (1 / 10 ^ n + ε / √(1 - (|v| + ε) ^ 2)) := by
  refine evalsTo_method0 h fun d hd => ?_
  obtain ⟨h1, h2⟩ := arcsin_near hd hv
  obtain ⟨r, h3, h5⟩ := C26_acos_accurate ext hs hf d n (by exact_mod_cast h1) h4 h94
  refine ⟨r, h3, near_trans h5.le ?_⟩
  rwa [Real.arccos, Real.arccos, sub_sub_sub_cancel_left, abs_sub_comm]

/-- Error of an evaluated logarithm. -/
noncomputable def lnErr (n : ℕ) (v ε : ℝ) : ℝ := (1 + 5 * (|Real.log v| + ε / (v - ε))) * (1 / 10 ^ n) + ε / (v - ε)

/-- What is asked of the argument of a logarithm. -/
structure LnArg (ext : BdExt) (v ε : ℝ) : Prop where
  pos : ε < v
  fuel : 3 * (|Real.log v| + ε / (v - ε)) + 2 ≤ ext.fuel

theorem log_near {x b : Dec} (hx : |(x.val : ℝ) - v₁| ≤ ε₁) (hb : |(b.val : ℝ) - v₂| ≤ ε₂) (a₁ : LnArg ext v₁ ε₁) (a₂ : LnArg ext v₂ ε₂) (h3 : 3 ≤ n) (h97 : n ≤ 97)
    (h1 : v₂ ≠ 1) (hM : lnErr n v₂ ε₂ ≤ |Real.log v₂| / 2) :
    ∃ d, Bd.log ext x b n = .ok (some d) ∧ |(d.val : ℝ) - Real.logb v₂ v₁| ≤
      (1 + 1 / 10 ^ 99) * (2 * (lnErr n v₁ ε₁ + |Real.logb v₂ v₁| * lnErr n v₂ ε₂) / |Real.log v₂|) + 1 / 10 ^ 99 * |Real.logb v₂ v₁| := by
  obtain ⟨lx, p1, p2⟩ := ln_near hx a₁.pos h3 h97 a₁.fuel
  obtain ⟨lb, q1, q2⟩ := ln_near hb a₂.pos h3 h97 a₂.fuel
  have hv2 : 0 < v₂ := lt_of_le_of_lt ((abs_nonneg _).trans hb) a₂.pos
  have hL : Real.log v₂ ≠ 0 := Real.log_ne_zero_of_pos_of_ne_one hv2 h1
  obtain ⟨q, hq, he⟩ := div_error hL p2 q2 hM
  refine ⟨q, by unfold Bd.log; rw [p1, q1]; simp only [Res.ok_bind, hq]; rfl, ?_⟩
  rw [← Real.log_div_log]
  exact he

/-- Error of an evaluated power: of its exponent before the exponential is taken. -/
noncomputable def powErr (n : ℕ) (v₁ ε₁ v₂ ε₂ : ℝ) : ℝ := |v₂| * lnErr n v₁ ε₁ + |Real.log v₁| * ε₂ + ε₂ * lnErr n v₁ ε₁

theorem pow_near {x y : Dec} (hx : |(x.val : ℝ) - v₁| ≤ ε₁) (hy : |(y.val : ℝ) - v₂| ≤ ε₂) (a₁ : LnArg ext v₁ ε₁)
    {B : ℕ} (hB : 1 ≤ B) (hn : B + 2 ≤ n) (hn2 : n + B ≤ 97) (hz : |v₂ * Real.log v₁| + powErr n v₁ ε₁ v₂ ε₂ ≤ B) :
    ∃ d, Bd.pow ext x y n = .ok (some d) ∧ |(d.val : ℝ) - v₁ ^ v₂| ≤ 1 / 10 ^ n + Real.exp B * powErr n v₁ ε₁ v₂ ε₂ := by
  obtain ⟨lx, p1, p2⟩ := ln_near (n := n) hx a₁.pos (by omega) (by omega) a₁.fuel
  have hε2 : 0 ≤ ε₂ := (abs_nonneg _).trans hy
  have hv1 : 0 < v₁ := lt_of_le_of_lt ((abs_nonneg _).trans hx) a₁.pos
  have hz1 : |(y.val : ℝ) * lx.val - v₂ * Real.log v₁| ≤ powErr n v₁ ε₁ v₂ ε₂ := by
    unfold powErr lnErr
    rw [show (y.val : ℝ) * lx.val - v₂ * Real.log v₁ = v₂ * (lx.val - Real.log v₁) + Real.log v₁ * (y.val - v₂) +
      (y.val - v₂) * (lx.val - Real.log v₁) by ring]
    refine (abs_add_le _ _).trans (add_le_add ((abs_add_le _ _).trans (add_le_add ?_ ?_)) ?_) <;> rw [abs_mul] <;> gcongr
  have hzv := abs_le_of_near hz1 hz
  have hz' : |(y * lx).val| ≤ (B : ℚ) := by rw [val_mul]; exact_mod_cast hzv
  obtain ⟨d, hd, he⟩ := C23_exp_accurate (y * lx) n B hB hz' hn (by omega)
  refine ⟨d, by unfold Bd.pow; rw [p1]; simp only [Res.ok_bind, hd]; rfl, ?_⟩
  rw [val_mul] at he; push_cast at he
  have hpe : 0 ≤ powErr n v₁ ε₁ v₂ ε₂ := (abs_nonneg _).trans hz1
  rw [Real.rpow_def_of_pos hv1, mul_comm (Real.log v₁)]
  refine near_trans he.le ((exp_lipschitz (abs_le.1 hzv).2 ?_).trans ?_)
  · linarith [le_abs_self (v₂ * Real.log v₁)]
  · gcongr

theorem eval_method1 {m : String} {t₁ t₂ : Expr} {d₁ d₂ r : Dec} (h1 : eval ext n e₁ = .ok t₁) (h2 : exprToDec t₁ = .ok d₁)
    (h3 : eval ext n e₂ = .ok t₂) (h4 : exprToDec t₂ = .ok d₂) (h5 : evalMethod ext n m d₁ [d₂] = .ok r) :
    eval ext n (.methodCall e₁ m [e₂]) = .ok (exprOfDec r) := by
  rw [eval, h1]
  simp only [evalArgs, Res.ok_bind, h2, h3, Res.pure_eq, exprsToDecs, h4, h5]

theorem evalsTo_method1 {m : String} (h₁ : EvalsTo ext n e₁ v₁ ε₁) (h₂ : EvalsTo ext n e₂ v₂ ε₂) {w δ : ℝ}
    (hf : ∀ d₁ d₂ : Dec, |(d₁.val : ℝ) - v₁| ≤ ε₁ → |(d₂.val : ℝ) - v₂| ≤ ε₂ → ∃ r, evalMethod ext n m d₁ [d₂] = .ok r ∧ |(r.val : ℝ) - w| ≤ δ) :
    EvalsTo ext n (.methodCall e₁ m [e₂]) w δ := by
  obtain ⟨t₁, d₁, a1, a2, a3⟩ := h₁
  obtain ⟨t₂, d₂, b1, b2, b3⟩ := h₂
  obtain ⟨r, h4, h5⟩ := hf d₁ d₂ a3 b3
  exact ⟨_, _, eval_method1 a1 a2 b1 b2 h4, exprToDec_exprOfDec _, by rwa [val_canon]⟩

/-- **C67** `x.log(b)`. -/
theorem C67_log (h₁ : EvalsTo ext n e₁ v₁ ε₁) (h₂ : EvalsTo ext n e₂ v₂ ε₂) (a₁ : LnArg ext v₁ ε₁) (a₂ : LnArg ext v₂ ε₂) (h3 : 3 ≤ n) (h97 : n ≤ 97)
    (h1 : v₂ ≠ 1) (hM : lnErr n v₂ ε₂ ≤ |Real.log v₂| / 2) :
    EvalsTo ext n (.methodCall e₁ "log" [e₂]) (Real.logb v₂ v₁)
      ((1 + 1 / 10 ^ 99) * (2 * (lnErr n v₁ ε₁ + |Real.logb v₂ v₁| * lnErr n v₂ ε₂) / |Real.log v₂|) + 1 / 10 ^ 99 * |Real.logb v₂ v₁|) :=
  evalsTo_method1 h₁ h₂ fun d₁ d₂ hd₁ hd₂ => by
    obtain ⟨r, h4, h5⟩ := log_near hd₁ hd₂ a₁ a₂ h3 h97 h1 hM
    exact ⟨r, by simp only [evalMethod, h4]; rfl, h5⟩

/-- **C67** `x.log2()` and `x.log10()` use bases two and ten. -/
theorem C67_log2 (h : EvalsTo ext n e v ε) (a₁ : LnArg ext v ε) (a₂ : LnArg ext 2 0) (h3 : 3 ≤ n) (h97 : n ≤ 97) (hM : lnErr n 2 0 ≤ |Real.log 2| / 2) :
    EvalsTo ext n (.methodCall e "log2" []) (Real.logb 2 v)
      ((1 + 1 / 10 ^ 99) * (2 * (lnErr n v ε + |Real.logb 2 v| * lnErr n 2 0) / |Real.log 2|) + 1 / 10 ^ 99 * |Real.logb 2 v|) :=
  evalsTo_method0 (f := Real.logb 2) h fun d hd => by
    obtain ⟨r, h4, h5⟩ := log_near hd (b := Dec.two) (v₂ := 2) (ε₂ := 0) (by simp) a₁ a₂ h3 h97 (by norm_num) hM
    exact ⟨r, by simp only [evalMethod, h4]; rfl, h5⟩

/-- **C67** -/
theorem C67_log10 (h : EvalsTo ext n e v ε) (a₁ : LnArg ext v ε) (a₂ : LnArg ext 10 0) (h3 : 3 ≤ n) (h97 : n ≤ 97) (hM : lnErr n 10 0 ≤ |Real.log 10| / 2) :
    EvalsTo ext n (.methodCall e "log10" []) (Real.logb 10 v)
      ((1 + 1 / 10 ^ 99) * (2 * (lnErr n v ε + |Real.logb 10 v| * lnErr n 10 0) / |Real.log 10|) + 1 / 10 ^ 99 * |Real.logb 10 v|) :=
  evalsTo_method0 (f := Real.logb 10) h fun d hd => by
    obtain ⟨r, h4, h5⟩ := log_near hd (b := Dec.ofInt 10) (v₂ := 10) (ε₂ := 0) (by simp) a₁ a₂ h3 h97 (by norm_num) hM
    exact ⟨r, by simp only [evalMethod, h4]; rfl, h5⟩

/-- **C67** `x.powf(y)` and `x.powi(y)` are both the real power. -/
theorem C67_pow {m : String} (hm : m = "powf" ∨ m = "powi") (h₁ : EvalsTo ext n e₁ v₁ ε₁) (h₂ : EvalsTo ext n e₂ v₂ ε₂) (a₁ : LnArg ext v₁ ε₁)
    {B : ℕ} (hB : 1 ≤ B) (hn : B + 2 ≤ n) (hn2 : n + B ≤ 97) (hz : |v₂ * Real.log v₁| + powErr n v₁ ε₁ v₂ ε₂ ≤ B) :
    EvalsTo ext n (.methodCall e₁ m [e₂]) (v₁ ^ v₂) (1 / 10 ^ n + Real.exp B * powErr n v₁ ε₁ v₂ ε₂) :=
  evalsTo_method1 h₁ h₂ fun d₁ d₂ hd₁ hd₂ => by
    obtain ⟨r, h4, h5⟩ := pow_near hd₁ hd₂ a₁ hB hn hn2 hz
    rcases hm with rfl | rfl <;> exact ⟨r, by simp only [evalMethod, h4]; rfl, h5⟩

/-- **C67** -/
theorem C67_exp2 (h : EvalsTo ext n e v ε) (a₁ : LnArg ext 2 0)
    {B : ℕ} (hB : 1 ≤ B) (hn : B + 2 ≤ n) (hn2 : n + B ≤ 97) (hz : |v * Real.log 2| + powErr n 2 0 v ε ≤ B) :
    EvalsTo ext n (.methodCall e "exp2" []) (2 ^ v) (1 / 10 ^ n + Real.exp B * powErr n 2 0 v ε) :=
  evalsTo_method0 (f := fun v : ℝ => (2 : ℝ) ^ v) h fun d hd => by
    obtain ⟨r, h4, h5⟩ := pow_near (x := Dec.two) (v₁ := 2) (ε₁ := 0) (by simp) hd a₁ hB hn hn2 hz
    exact ⟨r, by simp only [evalMethod, h4]; rfl, h5⟩

/-! ## Error function and normal distribution -/

/-- **C67** -/
theorem C67_erf (hs : SqrtOk ext) (hf : 1 ≤ ext.fuel) {q : ℚ} (h : EvalsTo ext n e q 0) {B : ℕ} (hB : 1 ≤ B) (hx : q ^ 2 ≤ B) (hn : B + 2 ≤ n) (hn2 : n + B ≤ 94) :
    EvalsTo ext n (.methodCall e "erf" []) (2 / √Real.pi * ∫ t in (0 : ℝ)..q, Real.exp (-t ^ 2)) (3 / 2 * |(q : ℝ)| * (1 / 10 ^ n)) ∧
    EvalsTo ext n (.methodCall e "erfc" []) (1 - 2 / √Real.pi * ∫ t in (0 : ℝ)..q, Real.exp (-t ^ 2)) (3 / 2 * |(q : ℝ)| * (1 / 10 ^ n)) := by
  have exact : ∀ d : Dec, |(d.val : ℝ) - q| ≤ 0 → d.val = q := fun d hd => by
    have := sub_eq_zero.1 (abs_eq_zero.1 (le_antisymm hd (abs_nonneg _)))
    exact_mod_cast this
  constructor
  · refine evalsTo_method0 (f := fun q : ℝ => 2 / √Real.pi * ∫ t in (0 : ℝ)..q, Real.exp (-t ^ 2)) h fun d hd => ?_
    have := exact d hd; subst this
    exact C32_erf_accurate ext hs hf d n B hB hx hn hn2
  · refine evalsTo_method0 (f := fun q : ℝ => 1 - 2 / √Real.pi * ∫ t in (0 : ℝ)..q, Real.exp (-t ^ 2)) h fun d hd => ?_
    have := exact d hd; subst this
    exact C32_erfc_accurate ext hs hf d n B hB hx hn hn2

/-- **C67** `x.pnorm(mean, sd)` and `x.dnorm(mean, sd)`: the arguments in this order. -/
theorem C67_normal (hs : SqrtOk ext) (hf : 1 ≤ ext.fuel) {x mean sd : ℚ} {e₃ : Expr} (h₁ : EvalsTo ext n e₁ x 0) (h₂ : EvalsTo ext n e₂ mean 0) (h₃ : EvalsTo ext n e₃ sd 0)
    {B : ℕ} (hB : 1 ≤ B) (hsd : sd ≠ 0) (hx : ((x - mean) / sd) ^ 2 ≤ B) (hn : B + 2 ≤ n) (hn2 : n + B ≤ 94) :
    EvalsTo ext n (.methodCall e₁ "pnorm" [e₂, e₃]) (normalCdf ((x - mean) / sd)) (|((x : ℝ) - mean) / sd| * (1 / 10 ^ n)) ∧
    EvalsTo ext n (.methodCall e₁ "dnorm" [e₂, e₃]) (normalPdf ((x - mean) / sd) / sd) (1 / |(sd : ℝ)| * (1 / 10 ^ n)) := by
  have exact : ∀ (d : Dec) (q : ℚ), |(d.val : ℝ) - q| ≤ 0 → d.val = q := fun d q hd => by
    have := sub_eq_zero.1 (abs_eq_zero.1 (le_antisymm hd (abs_nonneg _)))
    exact_mod_cast this
  obtain ⟨t₁, d₁, a1, a2, a3⟩ := h₁
  obtain ⟨t₂, d₂, b1, b2, b3⟩ := h₂
  obtain ⟨t₃, d₃, c1, c2, c3⟩ := h₃
  have := exact _ _ a3; subst this
  have := exact _ _ b3; subst this
  have := exact _ _ c3; subst this
  have key : ∀ m r, evalMethod ext n m d₁ [d₂, d₃] = .ok r → eval ext n (.methodCall e₁ m [e₂, e₃]) = .ok (exprOfDec r) := by
    intro m r h
    rw [eval, a1]
    simp only [evalArgs, Res.ok_bind, a2, b1, c1, Res.pure_eq, exprsToDecs, b2, c2, h]
  obtain ⟨p, p1, p2⟩ := C32_pnorm_accurate ext hs hf d₁ d₂ d₃ n B hB hsd hx hn hn2
  obtain ⟨q, q1, q2⟩ := C32_dnorm_accurate ext hs hf d₁ d₂ d₃ n B hB hsd hx hn hn2
  exact ⟨⟨_, _, key "pnorm" p p1, exprToDec_exprOfDec _, by rwa [val_canon]⟩, ⟨_, _, key "dnorm" q q1, exprToDec_exprOfDec _, by rwa [val_canon]⟩⟩

/-- **C67** `p.qnorm(mean, sd)`: when a number is returned, the normal distribution function takes it back to `p`. -/
theorem C67_qnorm (hs : SqrtOk ext) (hf : 1 ≤ ext.fuel) {x mean sd : ℚ} {e₃ t : Expr} {d : Dec} (h₁ : EvalsTo ext n e₁ x 0) (h₂ : EvalsTo ext n e₂ mean 0) (h₃ : EvalsTo ext n e₃ sd 0)
    {B : ℕ} (hB : 1 ≤ B) (hsd : sd ≠ 0) (hn : B + 2 ≤ n) (hn2 : n + B ≤ 94)
    (h : eval ext n (.methodCall e₁ "qnorm" [e₂, e₃]) = .ok t) (hd : exprToDec t = .ok d) (hq : ((|d.val - mean| + 1) / sd) ^ 2 ≤ B) :
    |normalCdf ((d.val - mean) / sd) - x| ≤ (1 / 2 + |((d.val : ℝ) - mean) / sd| + 1 / |(sd : ℝ)|) * (1 / 10 ^ n) := by
  have exact : ∀ (d : Dec) (q : ℚ), |(d.val : ℝ) - q| ≤ 0 → d.val = q := fun d q hd => by
    have := sub_eq_zero.1 (abs_eq_zero.1 (le_antisymm hd (abs_nonneg _)))
    exact_mod_cast this
  obtain ⟨t₁, d₁, a1, a2, a3⟩ := h₁
  obtain ⟨t₂, d₂, b1, b2, b3⟩ := h₂
  obtain ⟨t₃, d₃, c1, c2, c3⟩ := h₃
  have := exact _ _ a3; subst this
  have := exact _ _ b3; subst this
  have := exact _ _ c3; subst this
  rw [eval, a1] at h
  simp only [evalArgs, Res.ok_bind, a2, b1, c1, Res.pure_eq, exprsToDecs, b2, c2, Res.bind_eq_ok] at h
  obtain ⟨r, hr, ht⟩ := h
  cases ht
  rw [exprToDec_exprOfDec] at hd
  cases hd
  rw [val_canon] at hq ⊢
  have hr' : Bd.qnorm ext d₁ d₂ d₃ n = .ok (some r) := by
    simp only [evalMethod, orEvalErr, Res.bind_eq_ok] at hr
    revert hr
    cases hqn : Bd.qnorm ext d₁ d₂ d₃ n with
    | ok o => cases o with
      | none => intro hr; simp [Res.okOr] at hr
      | some w => intro hr; simp [Res.okOr] at hr; rw [hr]
    | _ => intro hr; simp at hr
  exact C33_qnorm_true_quantile ext hs hf d₁ d₂ d₃ n B hB hsd hn hn2 r hr' hq

end

/-! Expressions meeting the hypotheses are the constants in `Verif.Props.Constants`. -/

end Verif

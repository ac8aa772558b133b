import Verif.Props.GenExp
import Verif.Props.GenBits

/-! # C75: normal density, quantile and random numbers; C51: `sin_cos` -/

namespace Verif
open RExpr

/-- **C51** `sin_cos` is the pair of `sin` and `cos`, in this order, whatever the arithmetic. -/
theorem C51_sin_cos {α : Type} (I : RInterp α) (g : Name → α) (x : α) :
    Gen.sin_cos.apply I g [x] = I.tuple [I.call ["sin"] [x], I.call ["cos"] [x]] := by
  simp [Gen.sin_cos, RFn.apply, bindParams, RStmt.denoteBlock, RExpr.denote, RExpr.denoteArgs, app, v, envSet]

section
variable {F : FloatFmt} {calls : String → List RV → RV} {g : Name → RV}

/-! ## The density -/

/-- The density of the normal distribution. -/
noncomputable def normalDensity (mean sd x : ℝ) : ℝ := Real.exp (-(x - mean) ^ 2 / (2 * sd ^ 2)) / (sd * √(2 * Real.pi))

/-- **C75** `dnorm` is the density, given exact `exp2` and constants. -/
theorem C75_dnorm (h : ExactBase calls g) (hs : g ["SQRT_RECIP_2PI"] = .f (√(1 / (2 * Real.pi)))) {mean sd : ℝ} (h0 : sd ≠ 0) (x : ℝ) :
    Gen.dnorm.apply (realInterp F calls) g [.f x, .f mean, .f sd] = .f (normalDensity mean sd x) := by
  have e : Real.exp (-(x - mean) ^ 2 / (2 * sd ^ 2)) = (2 : ℝ) ^ (-(1 / 2) * Real.logb 2 (Real.exp 1) * ((x - mean) * (1 / sd)) * ((x - mean) * (1 / sd))) := by
    rw [← two_rpow_logb_e]; congr 1; field_simp
  have hs2 : √(1 / (2 * Real.pi)) = 1 / √(2 * Real.pi) := by rw [Real.sqrt_div (by norm_num), Real.sqrt_one]
  rw [hs2] at hs
  have hpi : √(2 * Real.pi) ≠ 0 := by positivity
  simp only [Gen.dnorm, ofFty_apply, List.map, bindParams, denoteBlock_letT, denoteBlock_expr, denote_v, denote_sub, denote_mul, denote_div, denote_neg, denote_paren, denote_as,
    denote_app, denoteArgs_nil, denoteArgs_cons, envSet_one, num_1, num_half, real_bin, real_un, real_cast, real_call, String.reduceEq, if_true, if_false, castRV, unRV,
    h.log2_e, hs, bin_div h0, bin_mul, bin_sub, h.exp2]
  rw [normalDensity, e]
  congr 1
  field_simp

/-! ## The quantile -/

/-- **C75** `qnorm` for any quantile function `q`: with a polynomial within `ε` of `q(x + 1/2) (x² - 1/4)` the result is within
`ε |sigma| / (p (1 - p))` of `mean + sigma q(p)`. -/
theorem C75_qnorm {p : RExpr} {q : ℝ → ℝ} {s : Set ℝ} {ε : ℝ}
    (hp : Approximates (realInterp F calls) "x" p (fun x => q (x + 1 / 2) * (x * x - 1 / 4)) s ε) {a : ℝ} (ha : a - 1 / 2 ∈ s) (h0 : 0 < a) (h1 : a < 1) (mean sd : ℝ) :
    ∃ y, (Gen.qnorm p).apply (realInterp F calls) g [.f a, .f mean, .f sd] = .f y ∧ |y - (mean + sd * q a)| ≤ ε * |sd| / (a * (1 - a)) := by
  obtain ⟨P, hP, hε⟩ := hp
  have hx := hε _ ha
  simp only [] at hx
  rw [sub_add_cancel] at hx
  have hpos : 0 < a * (1 - a) := mul_pos h0 (by linarith)
  have hd : (a - 1 / 2) * (a - 1 / 2) - 1 / 4 = -(a * (1 - a)) := by ring
  have hd' : (a - 1 / 2) * (a - 1 / 2) - 1 / 2 * (1 / 2) = -(a * (1 - a)) := by ring
  rw [hd] at hx
  refine ⟨P (a - 1 / 2) * (sd / -(a * (1 - a))) + mean, ?_, ?_⟩
  · simp only [Gen.qnorm, ofFty_apply, List.map, bindParams, denoteBlock_letT, denoteBlock_letU]
    rw [hP _ (a - 1 / 2) (by simp) ha]
    simp only [denoteBlock_expr, denote_v, denote_sub, denote_mul, denote_add, denote_div, denote_paren, envSet_one, num_half, real_bin, String.reduceEq, if_true, if_false,
      bin_mul, bin_sub, hd', bin_div (neg_ne_zero.2 hpos.ne'), bin_add]
  · rw [show P (a - 1 / 2) * (sd / -(a * (1 - a))) + mean - (mean + sd * q a) = (P (a - 1 / 2) - q a * -(a * (1 - a))) * sd / -(a * (1 - a)) by
      have h3 : 1 - a ≠ 0 := by linarith
      field_simp
      ring,
      abs_div, abs_mul, abs_neg, abs_of_pos hpos]
    gcongr

/-! ## Random numbers -/

/-- The call in `rnorm`. -/
theorem rnorm_denote (index : ℤ) (mean sd : ℝ) :
    Gen.rnorm.apply (realInterp F calls) g [.i index, .f mean, .f sd] =
      calls "qnorm" [calls "runif" [.i index, .f (1 / 1000000), .f (1 - 1 / 1000000)], .f mean, .f sd] := by
  simp only [Gen.rnorm, RFn.apply, bindParams, RStmt.denoteBlock, denoteBlock_const, denoteBlock_letT, denoteBlock_expr, denote_v, denote_sub, denote_app, denoteArgs_nil, denoteArgs_cons, envSet_one, num_1, num_min,
    real_bin, real_call, String.reduceEq, if_true, if_false, bin_sub]

/-- **C75** `rnorm(index, mean, sigma)` is the quantile at a point between `1e-6` and `1 - 1e-6`. -/
theorem C75_rnorm_partial (hg : BitConsts .f64 g) {p : RExpr} (hr : Linked .f64 calls g Gen.runif) (hq : Linked .f64 calls g (Gen.qnorm p)) {q : ℝ → ℝ} {ε : ℝ}
    (hp : Approximates (realInterp .f64 calls) "x" p (fun x => q (x + 1 / 2) * (x * x - 1 / 4)) (Set.Icc (-(499999 / 1000000)) (499999 / 1000000)) ε)
    {index : ℤ} (h0 : 0 ≤ index) (h64 : index < 2 ^ 64) (mean sd : ℝ) :
    ∃ a y, 1 / 1000000 ≤ a ∧ a < 1 - 1 / 1000000 ∧ Gen.rnorm.apply (realInterp .f64 calls) g [.i index, .f mean, .f sd] = .f y ∧
      |y - (mean + sd * q a)| ≤ ε * |sd| / (a * (1 - a)) := by
  obtain ⟨a, ha, h1, h2⟩ := C59_runif_range (calls := calls) hg index h0 h64 (lo := 1 / 1000000) (hi := 1 - 1 / 1000000) (by norm_num)
  obtain ⟨y, hy, he⟩ := C75_qnorm (g := g) hp (a := a) (by constructor <;> linarith) (by linarith) (by linarith) mean sd
  refine ⟨a, y, h1, h2, ?_, he⟩
  rw [rnorm_denote, show calls "runif" = calls Gen.runif.name from rfl, hr, ha, show calls "qnorm" = calls (Gen.qnorm p).name from rfl, hq, hy]

/-- **C75** The polynomial of `qnorm` is fitted on `[-0.4999, 0.4999]`; `rnorm(23752, ..)` asks for the quantile at a point below `0.0001`, outside. -/
theorem C75_rnorm_outside (hg : BitConsts .f64 g) (hr : Linked .f64 calls g Gen.runif) (mean sd : ℝ) :
    ∃ a : ℝ, Gen.rnorm.apply (realInterp .f64 calls) g [.i 23752, .f mean, .f sd] = calls "qnorm" [.f a, .f mean, .f sd] ∧ a - 1 / 2 < -(4999 / 10000) := by
  have h := C59_runif_value (calls := calls) hg 23752 (1 / 1000000) (1 - 1 / 1000000) (by norm_num) (by norm_num)
  have hb : splitmixBits 23752 = 32048994703 := by decide +kernel
  rw [hb] at h
  refine ⟨_, by rw [rnorm_denote, show calls "runif" = calls Gen.runif.name from rfl, hr, h], ?_⟩
  norm_num

end

/-! ## The hypotheses can be met -/

example : Gen.dnorm.apply (realInterp .f64 demoBase) (fun n => if n = ["SQRT_RECIP_2PI"] then .f (√(1 / (2 * Real.pi))) else demoBaseConsts n) [.f 3, .f 1, .f 2] =
    .f (normalDensity 1 2 3) := by
  refine C75_dnorm ?_ (by simp) (by norm_num) 3
  have := demo_exactBase
  constructor
  · exact this.exp2
  · exact this.log2
  · exact this.ln
  · exact this.log2_e
  · exact this.recip_log2_e
  · exact this.recip_log2_10

/-- A polynomial for the quantile of the uniform distribution on `[-1/2, 1/2]`. -/
def demoQuantile : RExpr := v "x" * .paren (v "x" * v "x" - num "0.25")

theorem demoQuantile_ok (F : FloatFmt) (calls : String → List RV → RV) (s : Set ℝ) :
    Approximates (realInterp F calls) "x" demoQuantile (fun x => (x + 1 / 2 - 1 / 2) * (x * x - 1 / 4)) s 0 :=
  ⟨fun x => x * (x * x - 1 / 4), fun env x hx _ => by simp [demoQuantile, hx], fun x _ => by simp⟩

example : ∃ y, (Gen.qnorm demoQuantile).apply (realInterp .f64 fun _ _ => .junk) (fun _ => .junk) [.f (1 / 4), .f 10, .f 4] = .f y ∧
    |y - (10 + 4 * (1 / 4 - 1 / 2))| ≤ 0 := by
  have h := C75_qnorm (F := .f64) (calls := fun _ _ => .junk) (g := fun _ => .junk) (q := fun t => t - 1 / 2) (demoQuantile_ok _ _ Set.univ) (a := 1 / 4) trivial (by norm_num)
    (by norm_num) 10 4
  simpa using h

theorem fromBits_rename (c₁ c₂ : String → List RV → RV) (a : RV) :
    (realInterp .f64 c₁).call ["fty", "from_bits"] [a] = (realInterp .f64 c₂).call ["fty", "from_bits"] [a] := by
  cases a <;> rfl

/-- A library with the generated `runif` and `qnorm`. -/
noncomputable def demoRandom (name : String) (args : List RV) : RV :=
  if name = "runif" then Gen.runif.apply (realInterp .f64 fun _ _ => .junk) (demoBits .f64) args
  else (Gen.qnorm demoQuantile).apply (realInterp .f64 fun _ _ => .junk) (demoBits .f64) args

theorem demoRandom_runif : Linked .f64 demoRandom (demoBits .f64) Gen.runif := by
  intro args
  simp only [demoRandom, show Gen.runif.name = "runif" from rfl, if_true]
  simp only [Gen.runif, RFn.apply, denoteBlock_letT, denoteBlock_expr, denote_sub, denote_mul, denote_add, denote_paren, denote_fromBits, fromBits_rename (fun _ _ => .junk) demoRandom]
  rfl

theorem demoRandom_qnorm : Linked .f64 demoRandom (demoBits .f64) (Gen.qnorm demoQuantile) := by
  intro args
  simp only [demoRandom, show (Gen.qnorm demoQuantile).name = "qnorm" from rfl, if_neg (show "qnorm" ≠ "runif" by decide)]
  rfl

example : ∃ a : ℝ, 1 / 1000000 ≤ a ∧ Gen.rnorm.apply (realInterp .f64 demoRandom) (demoBits .f64) [.i 7, .f 10, .f 4] = .f (10 + 4 * (a - 1 / 2)) := by
  obtain ⟨a, y, h1, -, h3, h4⟩ := C75_rnorm_partial (demo_bits .f64) demoRandom_runif demoRandom_qnorm (q := fun t => t - 1 / 2) (demoQuantile_ok _ _ _) (index := 7) (by norm_num)
    (by norm_num) 10 4
  refine ⟨a, h1, ?_⟩
  simp only [zero_mul, zero_div] at h4
  rw [h3, sub_eq_zero.1 (abs_eq_zero.1 (le_antisymm h4 (abs_nonneg _)))]

end Verif

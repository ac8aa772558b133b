import Verif.Lemmas.Float
import Verif.Props.GenTrig
import Mathlib.Analysis.SpecialFunctions.Log.Base

/-! # C53, C54, C59-C61: the parts of the generated code that work on bit patterns -/

namespace Verif
open RExpr

/-- The values of the constants for a float format. -/
structure BitConsts (F : FloatFmt) (g : Name → RV) : Prop where
  exp2_one : g ["EXP2_ONE"] = .f (F.bias * 2 ^ F.mant)
  exp2_scale : g ["EXP2_SCALE"] = .f (2 ^ F.mant)
  exp2_min : g ["EXP2_MIN"] = .f (-F.bias)
  exp2_max : g ["EXP2_MAX"] = .f F.bias
  log2_shift : g ["LOG2_SHIFT"] = .i F.mant
  log2_offset : g ["LOG2_OFFSET"] = .i F.bias
  one_bits : g ["ONE_BITS"] = .i ((F.bias * 2 ^ F.mant : ℕ) : ℤ)
  one_mask : g ["ONE_MASK"] = .i ((2 ^ F.mant - 1 : ℕ) : ℤ)
  infinity : g ["INFINITY"] = .inf false
  nan : g ["NAN"] = .nan
  min_positive : g ["MIN_POSITIVE"] = .f ((2 : ℝ) ^ (1 - (F.bias : ℤ)))

/-- The expression of a `const` item. -/
def RItem.constExpr : RItem → RExpr
  | .const _ _ e => e
  | _ => .other ""

/-- The format of the configured width. -/
def fmtOf (b32 : Bool) : FloatFmt := if b32 then .f32 else .f64

theorem C68_flit {F : FloatFmt} {calls : String → List RV → RV} {env : Name → RV} {s sfx : String} {d : Dec}
    (h : parseDec s.toList = some d) : (Gen.flit s sfx).denote (realInterp F calls) env = .f (d.val : ℝ) := by
  simp [Gen.flit, RExpr.denote, realInterp, litRV, litValue, h]

theorem C68_ilit {F : FloatFmt} {calls : String → List RV → RV} {env : Name → RV} {s sfx : String} {n : ℤ}
    (h : parseDec s.toList = some ⟨n, 0⟩) : (Gen.ilit s sfx).denote (realInterp F calls) env = .i n := by
  simp [Gen.ilit, RExpr.denote, realInterp, litRV, litValue, h, Dec.val]

/-- **C68** The literals written for the bit-pattern constants are the values of the format, at both widths. -/
theorem C68_bit_constants (b32 : Bool) (calls : String → List RV → RV) (env : Name → RV) :
    let val := fun it : RItem => it.constExpr.denote (realInterp (fmtOf b32) calls) env
    val (Gen.EXP2_ONE b32) = .f ((fmtOf b32).bias * 2 ^ (fmtOf b32).mant) ∧
    val (Gen.EXP2_SCALE b32) = .f (2 ^ (fmtOf b32).mant) ∧
    val (Gen.EXP2_MIN b32) = .f (-(fmtOf b32).bias) ∧
    val (Gen.EXP2_MAX b32) = .f (fmtOf b32).bias ∧
    val (Gen.LOG2_SHIFT b32) = .i (fmtOf b32).mant ∧
    val (Gen.LOG2_OFFSET b32) = .i (fmtOf b32).bias ∧
    val (Gen.ONE_BITS b32) = .i (((fmtOf b32).bias * 2 ^ (fmtOf b32).mant : ℕ) : ℤ) ∧
    val (Gen.ONE_MASK b32) = .i ((2 ^ (fmtOf b32).mant - 1 : ℕ) : ℤ) := by
  have hb32 : FloatFmt.f32.bias = 127 := rfl
  have hb64 : FloatFmt.f64.bias = 1023 := rfl
  have hm32 : FloatFmt.f32.mant = 23 := rfl
  have hm64 : FloatFmt.f64.mant = 52 := rfl
  cases b32 <;> simp only [fmtOf, if_true, if_false, Bool.false_eq_true, RItem.constExpr, Gen.EXP2_ONE, Gen.EXP2_SCALE, Gen.EXP2_MIN, Gen.EXP2_MAX,
    Gen.LOG2_SHIFT, Gen.LOG2_OFFSET, Gen.ONE_BITS, Gen.ONE_MASK, Gen.constItem, hb32, hb64, hm32, hm64]
  · refine ⟨?_, ?_, ?_, ?_, ?_, ?_, ?_, ?_⟩
    · rw [C68_flit (d := ⟨46071824188000174080, 1⟩) rfl]; norm_num [Dec.val]
    · rw [C68_flit (d := ⟨45035996273704960, 1⟩) rfl]; norm_num [Dec.val]
    · rw [denote_neg, C68_flit (d := ⟨10230, 1⟩) rfl]; norm_num [Dec.val]
    · rw [C68_flit (d := ⟨10230, 1⟩) rfl]; norm_num [Dec.val]
    · rw [C68_ilit (n := 52) rfl]; norm_num
    · rw [C68_ilit (n := 1023) rfl]; norm_num
    · rw [C68_ilit (n := 4607182418800017408) rfl]; norm_num
    · rw [C68_ilit (n := 4503599627370495) rfl]; norm_num
  · refine ⟨?_, ?_, ?_, ?_, ?_, ?_, ?_, ?_⟩
    · rw [C68_flit (d := ⟨10653532160, 1⟩) rfl]; norm_num [Dec.val]
    · rw [C68_flit (d := ⟨83886080, 1⟩) rfl]; norm_num [Dec.val]
    · rw [denote_neg, C68_flit (d := ⟨1270, 1⟩) rfl]; norm_num [Dec.val]
    · rw [C68_flit (d := ⟨1270, 1⟩) rfl]; norm_num [Dec.val]
    · rw [C68_ilit (n := 23) rfl]; norm_num
    · rw [C68_ilit (n := 127) rfl]; norm_num
    · rw [C68_ilit (n := 1065353216) rfl]; norm_num
    · rw [C68_ilit (n := 8388607) rfl]; norm_num

section
variable {F : FloatFmt} {calls : String → List RV → RV} {g : Name → RV}

/-! ## C53 -/

theorem truncR_int (n : ℤ) : truncR (n : ℝ) = n := by
  unfold truncR; split_ifs <;> simp

/-- **C53** The pattern `exp2` builds from an integer `r` of the normal range is the float `2^r`. -/
theorem C53_scale (hF : F.Ok) (hg : BitConsts F g) (r : ℤ) (h1 : 1 - (F.bias : ℤ) ≤ r) (h2 : r ≤ F.bias) (env : Name → RV)
    (hr : env ["r"] = .f r) (he : ∀ s, s ≠ "r" → s ≠ "x" → s ≠ "arg" → s ≠ "scaled" → env [s] = g [s]) :
    Gen.scaleBits.denote (realInterp F calls) env = .f ((2 : ℝ) ^ r) := by
  have hs := he "EXP2_SCALE" (by decide) (by decide) (by decide) (by decide)
  have ho := he "EXP2_ONE" (by decide) (by decide) (by decide) (by decide)
  rw [hg.exp2_scale] at hs
  rw [hg.exp2_one] at ho
  obtain ⟨E, hE⟩ : ∃ E : ℕ, (E : ℤ) = r + F.bias := ⟨(r + F.bias).toNat, by omega⟩
  have hb := FloatFmt.two_bias hF
  have hval : (r : ℝ) * 2 ^ F.mant + F.bias * 2 ^ F.mant = ((E * 2 ^ F.mant + 0 : ℕ) : ℤ) := by
    have : (E : ℝ) = r + F.bias := by exact_mod_cast hE
    push_cast; rw [this]; ring
  have hlt := FloatFmt.lt_of_exp (F := F) (E := E) (f := 0) (by omega) (by positivity)
  have hlt2 : E * 2 ^ F.mant + 0 < 2 ^ F.width := lt_of_lt_of_le hlt (Nat.pow_le_pow_right (by norm_num) (by unfold FloatFmt.width; omega))
  have hltZ : ((E * 2 ^ F.mant + 0 : ℕ) : ℤ) < 2 ^ F.width := by exact_mod_cast hlt2
  simp only [Gen.scaleBits, denote_fromBits, denote_as, denote_paren, denote_method, denote_v, denoteArgs_cons, denoteArgs_nil, hr, hs, ho,
    real_meth, meth_mul_add, real_cast, hval, castRV, truncR_int]
  rw [clampZ_self (by positivity) (by omega), real_fromBits F calls _ (by positivity) hltZ, Int.toNat_natCast,
    FloatFmt.decode_normal (by omega) (by omega) (by positivity)]
  have : (E : ℤ) - F.bias = r := by omega
  rw [this]; simp

theorem rpow_split {a : ℝ} {r : ℤ} (h : |a - r| ≤ 1 / 2) :
    (2 : ℝ) ^ (a - r) * (2 : ℝ) ^ r = (2 : ℝ) ^ a ∧ (2 : ℝ) ^ r ≤ Real.sqrt 2 * (2 : ℝ) ^ a := by
  have h1 := abs_le.1 h
  constructor
  · rw [← Real.rpow_intCast, ← Real.rpow_add (by norm_num)]; congr 1; ring
  · rw [← Real.rpow_intCast, Real.sqrt_eq_rpow, ← Real.rpow_add (by norm_num)]
    exact Real.rpow_le_rpow_of_exponent_le (by norm_num) (by linarith)

theorem bias_lt (hF : F.Ok) : (F.bias : ℝ) + 1 ≤ 2 ^ (F.width - 1) := by
  have h1 : F.bias + 1 ≤ 2 ^ (F.width - 1) := by
    have h2 := FloatFmt.two_bias hF
    calc F.bias + 1 ≤ 2 ^ F.ebits := by omega
      _ ≤ _ := Nat.pow_le_pow_right (by norm_num) (by unfold FloatFmt.width; omega)
  exact_mod_cast h1

/-- What `round` gives in the range of exponents. -/
theorem round_exponent (hF : F.Ok) (hl : Linked F calls g Gen.round) {a : ℝ} (h1 : 1 - (F.bias : ℝ) ≤ a) (h2 : a ≤ F.bias) :
    ∃ r : ℤ, calls "round" [.f a] = .f r ∧ |a - r| ≤ 1 / 2 ∧ 1 - (F.bias : ℤ) ≤ r ∧ r ≤ F.bias := by
  have hb := bias_lt hF
  have hw : |a| + 1 / 2 < 2 ^ (F.width - 1) := by
    have : |a| ≤ F.bias := abs_le.2 ⟨by linarith, h2⟩
    linarith
  obtain ⟨r, hr, hd⟩ := C51_round F calls g a hw
  refine ⟨r, by rw [← hr]; exact hl _, hd, ?_, ?_⟩
  · have := (abs_le.1 hd).2
    have h3 : (-(F.bias : ℤ) : ℝ) < r := by push_cast; linarith
    have : -(F.bias : ℤ) < r := by exact_mod_cast h3
    omega
  · have := (abs_le.1 hd).1
    have h3 : (r : ℝ) < (F.bias : ℤ) + 1 := by push_cast; linarith
    have : r < (F.bias : ℤ) + 1 := by exact_mod_cast h3
    omega

/-- **C53** Generated `exp2` on the exponents of normal numbers: with a polynomial within `ε` of `2^x` on `[-1/2, 1/2]` the relative error is at
most `√2 ε`. -/
theorem C53_exp2_partial (hF : F.Ok) (hg : BitConsts F g) (hl : Linked F calls g Gen.round) {p : RExpr} {ε : ℝ}
    (hp : Approximates (realInterp F calls) "x" p (fun x => (2 : ℝ) ^ x) (Set.Icc (-(1 / 2)) (1 / 2)) ε)
    (a : ℝ) (h1 : 1 - (F.bias : ℝ) ≤ a) (h2 : a ≤ F.bias) :
    ∃ y, (Gen.exp2 p).apply (realInterp F calls) g [.f a] = .f y ∧ |y - (2 : ℝ) ^ a| ≤ Real.sqrt 2 * ε * (2 : ℝ) ^ a := by
  obtain ⟨r, hr, hd, hr1, hr2⟩ := round_exponent hF hl h1 h2
  obtain ⟨P, hP, he⟩ := hp
  have hm : a - r ∈ Set.Icc (-(1 / 2) : ℝ) (1 / 2) := abs_le.1 hd
  have hrR : ¬ (r : ℝ) < -F.bias := by
    rw [not_lt]; have : (-(F.bias : ℤ)) ≤ r := by omega
    exact_mod_cast this
  obtain ⟨e1, e2⟩ := rpow_split hd
  refine ⟨P (a - r) * (2 : ℝ) ^ r, ?_, ?_⟩
  · simp only [Gen.exp2, ofFty_apply, List.map, bindParams]
    simp [hr, hg.exp2_max, hg.exp2_min, not_lt.2 h2, hrR]
    rw [C53_scale hF hg r hr1 hr2 _ (by simp) (by intro s a b c d; simp [a, b, c])]
    rw [hP _ (a - r) (by simp) hm]
    simp
  · have := he _ hm
    rw [← e1, ← sub_mul, abs_mul, abs_of_pos (by positivity : (0 : ℝ) < 2 ^ r), e1]
    have hε : 0 ≤ ε := (abs_nonneg _).trans this
    calc |P (a - r) - (2 : ℝ) ^ (a - r)| * (2 : ℝ) ^ r ≤ ε * (Real.sqrt 2 * (2 : ℝ) ^ a) := by gcongr
      _ = _ := by ring

/-- **C53** Above the largest exponent `exp2` answers infinity whatever the polynomial. -/
theorem C53_overflow (hg : BitConsts F g) {p : RExpr} {a : ℝ} (ha : F.bias < a) {r : ℝ} (hr : calls "round" [.f a] = .f r)
    (h0 : -(F.bias : ℝ) ≤ r) : (Gen.exp2 p).apply (realInterp F calls) g [.f a] = .inf false := by
  simp only [Gen.exp2, ofFty_apply, List.map, bindParams]
  simp [hr, hg.exp2_max, hg.exp2_min, ha, not_lt.2 h0, hg.infinity]

/-- **C53** Far below the smallest exponent `exp2` answers zero. -/
theorem C53_underflow (hg : BitConsts F g) {p : RExpr} {a r : ℝ} (hr : calls "round" [.f a] = .f r) (h0 : r < -(F.bias : ℝ)) :
    (Gen.exp2 p).apply (realInterp F calls) g [.f a] = .f 0 := by
  simp only [Gen.exp2, ofFty_apply, List.map, bindParams]
  simp [hr, hg.exp2_min, h0]

/-- The largest finite float. -/
noncomputable def FloatFmt.maxFinite (F : FloatFmt) : ℝ := (2 - 1 / 2 ^ F.mant) * 2 ^ F.bias

/-- **C53** So `exp2` is infinite at arguments whose true result is finite, for example `bias + 1/2`. -/
theorem C53_not_finite (hF : F.Ok) (hg : BitConsts F g) (hl : Linked F calls g Gen.round) {p : RExpr} :
    (Gen.exp2 p).apply (realInterp F calls) g [.f (F.bias + 1 / 2)] = .inf false ∧ (2 : ℝ) ^ ((F.bias : ℝ) + 1 / 2) < F.maxFinite := by
  have hb := bias_lt hF
  constructor
  · have hb2 : (F.bias : ℝ) + 2 ≤ 2 ^ (F.width - 1) := by
      have h2 := FloatFmt.two_bias hF
      have h3 := FloatFmt.bias_pos hF
      have h1 : F.bias + 2 ≤ 2 ^ (F.width - 1) := by
        calc F.bias + 2 ≤ 2 ^ F.ebits := by omega
          _ ≤ _ := Nat.pow_le_pow_right (by norm_num) (by unfold FloatFmt.width; omega)
      exact_mod_cast h1
    obtain ⟨r, hr, hd⟩ := C51_round F calls g ((F.bias : ℝ) + 1 / 2) (by
      rw [abs_of_pos (by positivity)]; linarith)
    have hd' := abs_le.1 hd
    refine C53_overflow hg (by linarith) (r := r) (by rw [← hr]; exact hl _) ?_
    have : (0 : ℝ) ≤ F.bias := by positivity
    linarith
  · rw [Real.rpow_add (by norm_num), Real.rpow_natCast, ← Real.sqrt_eq_rpow, FloatFmt.maxFinite, mul_comm]
    have h1 : (1 : ℝ) / 2 ^ F.mant ≤ 1 / 2 := by
      have : (2 : ℝ) ^ 1 ≤ 2 ^ F.mant := pow_le_pow_right₀ (by norm_num) hF.mant
      rw [pow_one] at this
      exact one_div_le_one_div_of_le (by norm_num) this
    have h2 : Real.sqrt 2 < 3 / 2 := by rw [Real.sqrt_lt' (by norm_num)]; norm_num
    have : (0 : ℝ) < 2 ^ F.bias := by positivity
    nlinarith

/-- **C53** Generated `exp_m1` on the exponents of normal numbers, for any value of the constant `LOG2_E`. -/
theorem C53_exp_m1_const (hF : F.Ok) (hg : BitConsts F g) (hl : Linked F calls g Gen.round) {c : ℝ} (hc : g ["LOG2_E"] = .f c)
    {p : RExpr} {ε : ℝ} (hp : Approximates (realInterp F calls) "x" p (fun x => (2 : ℝ) ^ x - 1) (Set.Icc (-(1 / 2)) (1 / 2)) ε)
    (a : ℝ) (h1 : 1 - (F.bias : ℝ) ≤ a * c) (h2 : a * c ≤ F.bias) :
    ∃ y, (Gen.exp_m1 p).apply (realInterp F calls) g [.f a] = .f y ∧ |y - ((2 : ℝ) ^ (a * c) - 1)| ≤ Real.sqrt 2 * ε * (2 : ℝ) ^ (a * c) := by
  obtain ⟨r, hr, hd, hr1, hr2⟩ := round_exponent hF hl h1 h2
  obtain ⟨P, hP, he⟩ := hp
  obtain ⟨e1, e2⟩ := rpow_split hd
  set s := a * c with hs
  have hm : s - r ∈ Set.Icc (-(1 / 2) : ℝ) (1 / 2) := abs_le.1 hd
  refine ⟨P (s - r) * (2 : ℝ) ^ r + ((2 : ℝ) ^ r - 1), ?_, ?_⟩
  · simp only [Gen.exp_m1, ofFty_apply, List.map, bindParams]
    simp [hc, ← hs, hr]
    rw [C53_scale hF hg r hr1 hr2 _ (by simp) (by intro s a b c d; simp [a, c, d])]
    rw [hP _ (s - r) (by simp) hm]
    simp
  · have := he _ hm
    have hε : 0 ≤ ε := (abs_nonneg _).trans this
    rw [show P (s - r) * (2 : ℝ) ^ r + ((2 : ℝ) ^ r - 1) - ((2 : ℝ) ^ s - 1) = (P (s - r) - ((2 : ℝ) ^ (s - r) - 1)) * (2 : ℝ) ^ r by
      rw [← e1]; ring]
    rw [abs_mul, abs_of_pos (by positivity : (0 : ℝ) < 2 ^ r)]
    calc |P (s - r) - ((2 : ℝ) ^ (s - r) - 1)| * (2 : ℝ) ^ r ≤ ε * (Real.sqrt 2 * (2 : ℝ) ^ s) := by gcongr
      _ = _ := by ring

/-- **C53** Generated `exp_m1` on the exponents of normal numbers. -/
theorem C53_exp_m1 (hF : F.Ok) (hg : BitConsts F g) (hl : Linked F calls g Gen.round) (hc : g ["LOG2_E"] = .f (Real.logb 2 (Real.exp 1)))
    {p : RExpr} {ε : ℝ} (hp : Approximates (realInterp F calls) "x" p (fun x => (2 : ℝ) ^ x - 1) (Set.Icc (-(1 / 2)) (1 / 2)) ε)
    (a : ℝ) (h1 : 1 - (F.bias : ℝ) ≤ a * Real.logb 2 (Real.exp 1)) (h2 : a * Real.logb 2 (Real.exp 1) ≤ F.bias) :
    ∃ y, (Gen.exp_m1 p).apply (realInterp F calls) g [.f a] = .f y ∧ |y - (Real.exp a - 1)| ≤ Real.sqrt 2 * ε * Real.exp a := by
  have hexp : (2 : ℝ) ^ (a * Real.logb 2 (Real.exp 1)) = Real.exp a := by
    rw [mul_comm, Real.rpow_mul (by norm_num), Real.rpow_logb (by norm_num) (by norm_num) (Real.exp_pos 1), Real.exp_one_rpow]
  have := C53_exp_m1_const hF hg hl hc hp a h1 h2
  rwa [hexp] at this

/-! ## C54 -/

/-- **C54** Generated `log2` of a positive normal float `(1 + f/2^mant) 2^e`: the polynomial is evaluated at the mantissa less `3/2`, which lies in
`[-1/2, 1/2)`, and `e` is added, so a polynomial within `ε` of `log2 (x + 3/2)` gives a result within `ε` of the logarithm. -/
theorem C54_log2 (hF : F.Ok) (hg : BitConsts F g) {p : RExpr} {ε : ℝ}
    (hp : Approximates (realInterp F calls) "x" p (fun x => Real.logb 2 (x + 3 / 2)) (Set.Ico (-(1 / 2)) (1 / 2)) ε)
    {E f : ℕ} (h0 : 0 < E) (hE : E < 2 ^ F.ebits - 1) (hf : f < 2 ^ F.mant) :
    ∃ y, (Gen.log2 p).apply (realInterp F calls) g [.f ((1 + f / 2 ^ F.mant) * (2 : ℝ) ^ ((E : ℤ) - F.bias))] = .f y ∧
      |y - Real.logb 2 ((1 + f / 2 ^ F.mant) * (2 : ℝ) ^ ((E : ℤ) - F.bias))| ≤ ε := by
  obtain ⟨P, hP, he⟩ := hp
  have hM : (0 : ℝ) < 2 ^ F.mant := by positivity
  set q : ℝ := f / 2 ^ F.mant with hq
  have hq0 : 0 ≤ q := by positivity
  have hq1 : q < 1 := by rw [hq, div_lt_one hM]; exact_mod_cast hf
  have hm : 1 + q - 3 / 2 ∈ Set.Ico (-(1 / 2) : ℝ) (1 / 2) := ⟨by linarith, by linarith⟩
  have henc : F.encode ((1 + q) * (2 : ℝ) ^ ((E : ℤ) - F.bias)) = E * 2 ^ F.mant + f := FloatFmt.encode_normal h0 hf
  have hpos : 0 < (1 + q) * (2 : ℝ) ^ ((E : ℤ) - F.bias) := by positivity
  have hmin : ¬ (1 + q) * (2 : ℝ) ^ ((E : ℤ) - F.bias) < (2 : ℝ) ^ (1 - (F.bias : ℤ)) := by
    rw [not_lt]
    calc (2 : ℝ) ^ (1 - (F.bias : ℤ)) ≤ (2 : ℝ) ^ ((E : ℤ) - F.bias) := zpow_le_zpow_right₀ (by norm_num) (by omega)
      _ ≤ _ := le_mul_of_one_le_left (by positivity) (by linarith)
  have hb := FloatFmt.two_bias hF
  have hb1 := FloatFmt.bias_pos hF
  set n := E * 2 ^ F.mant + f with hn
  have hlt : n < 2 ^ (F.width - 1) := by
    have := FloatFmt.lt_of_exp (F := F) (by omega : E < 2 ^ F.ebits) hf
    simpa [FloatFmt.width] using this
  have hwrap : wrapS F.width (n : ℤ) = n := by
    have hw : (2 : ℤ) ^ F.width = 2 * 2 ^ (F.width - 1) := by
      rw [← pow_succ']; congr 1
    have hltZ : (n : ℤ) < 2 ^ (F.width - 1) := by exact_mod_cast hlt
    unfold wrapS
    rw [Int.emod_eq_of_lt (by positivity) (by rw [hw]; linarith)]; ring
  have hshift : ((n : ℕ) : ℤ) / 2 ^ ((F.mant : ℤ)).toNat = E := by
    rw [Int.toNat_natCast]
    have : n / 2 ^ F.mant = E := FloatFmt.div_of E f hf
    exact_mod_cast this
  have hand : Int.land (n : ℤ) ((2 ^ F.mant - 1 : ℕ) : ℤ) = (f : ℤ) := by
    have : n &&& (2 ^ F.mant - 1) = f := by rw [Nat.and_two_pow_sub_one_eq_mod]; exact FloatFmt.frac_of E f hf
    rw [← this]; rfl
  have hor : Int.lor (f : ℤ) ((F.bias * 2 ^ F.mant : ℕ) : ℤ) = ((F.bias * 2 ^ F.mant + f : ℕ) : ℤ) := by
    have : f ||| F.bias * 2 ^ F.mant = F.bias * 2 ^ F.mant + f := by
      rw [Nat.or_comm, Nat.mul_comm, ← Nat.two_pow_add_eq_or_of_lt hf]
    rw [← this]; rfl
  have hmant : F.decode (F.bias * 2 ^ F.mant + f) = .f (1 + q) := by
    rw [FloatFmt.decode_normal (by omega) (by omega) hf]; simp [hq]
  have hltM : ((F.bias * 2 ^ F.mant + f : ℕ) : ℤ) < 2 ^ F.width := by
    have h1 := FloatFmt.lt_of_exp (F := F) (by omega : F.bias < 2 ^ F.ebits) hf
    have h2 : F.bias * 2 ^ F.mant + f < 2 ^ F.width := lt_of_lt_of_le h1 (Nat.pow_le_pow_right (by norm_num) (by unfold FloatFmt.width; omega))
    exact_mod_cast h2
  refine ⟨P (1 + q - 3 / 2) + (((E : ℤ) - F.bias : ℤ) : ℝ), ?_, ?_⟩
  · simp only [Gen.log2, ofFty_apply, List.map, bindParams]
    simp only [denoteBlock_letT, denoteBlock_expr, denote_ifElse, denote_block, denote_cond, denote_v, denote_method, denoteArgs_nil, denote_lt,
      denote_sub, denote_add, denote_paren, denote_as, denote_binary, denote_fromBits, envSet_one, num_0, num_15, real_bin, real_meth, real_cast,
      String.reduceEq, if_true, if_false]
    simp only [meth_to_bits, henc, castRV, hwrap, hg.log2_shift, hg.log2_offset, hg.one_mask, hg.one_bits, hg.min_positive,
      binRV, hshift, hand, hor, real_test]
    rw [real_fromBits F calls _ (by positivity) hltM, Int.toNat_natCast, hmant]
    simp only [not_lt.2 hpos.le, hmin, decide_false, Bool.false_eq_true, if_false]
    rw [hP _ (1 + q - 3 / 2) (by simp) hm]
  · have h1 : |P (1 + q - 3 / 2) - Real.logb 2 (1 + q - 3 / 2 + 3 / 2)| ≤ ε := he _ hm
    rw [show 1 + q - 3 / 2 + 3 / 2 = 1 + q by ring] at h1
    rw [Real.logb_mul (by positivity) (by positivity), ← Real.rpow_intCast, Real.logb_rpow (by norm_num) (by norm_num)]
    rwa [show ∀ u v w : ℝ, u + w - (v + w) = u - v from fun u v w => by ring]

/-- **C54** Zero and subnormal numbers give minus infinity. -/
theorem C54_log2_small (hg : BitConsts F g) {p : RExpr} {a : ℝ} (h0 : 0 ≤ a) (h1 : a < (2 : ℝ) ^ (1 - (F.bias : ℤ))) :
    (Gen.log2 p).apply (realInterp F calls) g [.f a] = .inf true := by
  simp only [Gen.log2, ofFty_apply, List.map, bindParams]
  simp [not_lt.2 h0, hg.min_positive, hg.infinity, h1]
  rfl

/-! ## C59 -/

/-- The bits `x` of `runif` are made of: exponent of one, arbitrary fraction. -/
theorem or_one_bits (z : ℕ) (hz : z < 2 ^ 62) : z ||| 1023 * 2 ^ 52 = 1023 * 2 ^ 52 + z % 2 ^ 52 := by
  have hf : z % 2 ^ 52 < 2 ^ 52 := Nat.mod_lt _ (by norm_num)
  have hE : z / 2 ^ 52 < 2 ^ 10 := by rw [Nat.div_lt_iff_lt_mul (by norm_num)]; exact hz
  apply Nat.eq_of_testBit_eq
  intro i
  rw [Nat.testBit_or]
  rw [show 1023 * 2 ^ 52 + z % 2 ^ 52 = 2 ^ 52 * 1023 + z % 2 ^ 52 by ring, Nat.testBit_two_pow_mul_add _ hf,
    show 1023 * 2 ^ 52 = 2 ^ 52 * 1023 by ring, Nat.testBit_two_pow_mul]
  by_cases hi : i < 52
  · simp only [hi, if_true, Nat.testBit_mod_two_pow, decide_true, Bool.true_and]
    simp [not_le.2 hi]
  · simp only [hi, if_false]
    have hle : 52 ≤ i := not_lt.1 hi
    simp only [ge_iff_le, hle, decide_true, Bool.true_and]
    by_cases h10 : i - 52 < 10
    · have : Nat.testBit 1023 (i - 52) = true := by
        rw [show 1023 = 2 ^ 10 - 1 by norm_num, Nat.testBit_two_pow_sub_one]; simpa using h10
      simp [this]
    · have hbig : Nat.testBit z i = false := by
        apply Nat.testBit_lt_two_pow
        exact lt_of_lt_of_le hz (Nat.pow_le_pow_right (by norm_num) (by omega))
      simp [hbig]

/-- The output function of `splitmix64` (https://xorshift.di.unimi.it/splitmix64.c) for the state after `index + 1` steps from zero, on words of 64 bits. -/
def splitmix64 (index : ℤ) : ℤ :=
  let z := (index + 1) * 0x9e3779b97f4a7c15 % 2 ^ 64
  let z1 := Int.xor z (z / 2 ^ 30) * 0xbf58476d1ce4e5b9 % 2 ^ 64
  let z2 := Int.xor z1 (z1 / 2 ^ 27) * 0x94d049bb133111eb % 2 ^ 64
  Int.xor z2 (z2 / 2 ^ 31)

/-- Bits 2 to 53 of `splitmix64`. -/
def splitmixBits (index : ℤ) : ℕ := (splitmix64 index % 2 ^ 64 / 4).toNat % 2 ^ 52

/-- **C59** In exact arithmetic 64-bit `runif(index, min, max)` is `min + u (max - min)` where `u` is a 52-bit fraction made of the bits of `splitmix64`. -/
theorem C59_runif_value (hg : BitConsts .f64 g) (index : ℤ) (lo hi : ℝ) (h0 : 0 ≤ index) (h64 : index < 2 ^ 64) :
    Gen.runif.apply (realInterp .f64 calls) g [.i index, .f lo, .f hi] = .f ((splitmixBits index : ℝ) / 2 ^ 52 * (hi - lo) + lo) := by
  have int30 : ∀ env, (int "30").denote (realInterp .f64 calls) env = .i 30 := fun env => denote_int _ _ _ rfl
  have int27 : ∀ env, (int "27").denote (realInterp .f64 calls) env = .i 27 := fun env => denote_int _ _ _ rfl
  have int31 : ∀ env, (int "31").denote (realInterp .f64 calls) env = .i 31 := fun env => denote_int _ _ _ rfl
  have int2 : ∀ env, (int "2").denote (realInterp .f64 calls) env = .i 2 := fun env => denote_int _ _ _ rfl
  have intA : ∀ env, (int "11400714819323198485").denote (realInterp .f64 calls) env = .i 11400714819323198485 := fun env => denote_int _ _ _ rfl
  have intB : ∀ env, (int "13787848793156543929").denote (realInterp .f64 calls) env = .i 13787848793156543929 := fun env => denote_int _ _ _ rfl
  have intC : ∀ env, (int "10723151780598845931").denote (realInterp .f64 calls) env = .i 10723151780598845931 := fun env => denote_int _ _ _ rfl
  have hw : FloatFmt.f64.width = 64 := rfl
  have hone : g ["ONE_BITS"] = .i ((1023 * 2 ^ 52 : ℕ) : ℤ) := hg.one_bits
  simp only [Gen.runif, Gen.xorShift, RFn.apply, bindParams]
  simp only [denoteBlock_letT, denoteBlock_expr, denote_v, denote_method, denoteArgs_nil, denoteArgs_cons, denote_sub, denote_add, denote_mul, denote_paren,
    denote_as, denote_binary, denote_fromBits, envSet_one, num_1, real_bin, real_meth, real_cast, String.reduceEq, if_true, if_false,
    int30, int27, int31, int2, intA, intB, intC, int_1, castRV, binRV, methRV, hone, hw]
  rw [Int.emod_eq_of_lt h0 h64]
  generalize hz3 : Int.xor _ _ = z3
  have hz3' : splitmix64 index = z3 := hz3
  have hz0 : 0 ≤ z3 % 2 ^ 64 / 2 ^ (2 : ℤ).toNat :=
    Int.ediv_nonneg (Int.emod_nonneg _ (by norm_num)) (by positivity)
  have hz1 : z3 % 2 ^ 64 / 2 ^ (2 : ℤ).toNat < 2 ^ 62 := by
    have : z3 % 2 ^ 64 < 2 ^ 64 := Int.emod_lt_of_pos _ (by norm_num)
    have e : (2 : ℤ) ^ (2 : ℤ).toNat = 4 := rfl
    rw [e]; omega
  obtain ⟨z, hz⟩ := Int.eq_ofNat_of_zero_le hz0
  rw [hz] at hz1 ⊢
  have hzlt : z < 2 ^ 62 := by exact_mod_cast hz1
  have hf : z % 2 ^ 52 < 2 ^ 52 := Nat.mod_lt _ (by norm_num)
  have hor : Int.lor (z : ℤ) ((1023 * 2 ^ 52 : ℕ) : ℤ) = ((1023 * 2 ^ 52 + z % 2 ^ 52 : ℕ) : ℤ) := by
    rw [← or_one_bits z hzlt]; rfl
  have hdec : FloatFmt.f64.decode (1023 * 2 ^ 52 + z % 2 ^ 52) = .f (1 + (z % 2 ^ 52 : ℕ) / 2 ^ 52) := by
    have := FloatFmt.decode_normal (F := .f64) (E := 1023) (f := z % 2 ^ 52) (by norm_num) (by norm_num [FloatFmt.f64]) hf
    rw [show FloatFmt.f64.mant = 52 from rfl, show FloatFmt.f64.bias = 1023 from rfl] at this
    rw [this]; simp
  rw [hor, real_fromBits .f64 calls _ (by positivity) (by rw [hw]; exact_mod_cast (by omega : 1023 * 2 ^ 52 + z % 2 ^ 52 < 2 ^ 64)),
    Int.toNat_natCast, hdec]
  have hbits : splitmixBits index = z % 2 ^ 52 := by
    rw [splitmixBits, hz3', show (4 : ℤ) = 2 ^ (2 : ℤ).toNat from rfl, hz]; rfl
  rw [hbits]
  simp only []
  congr 1; ring

/-- **C59** So `u` is in `[0, 1)`. -/
theorem C59_runif_form (hg : BitConsts .f64 g) (index : ℤ) (lo hi : ℝ) (h0 : 0 ≤ index) (h64 : index < 2 ^ 64) :
    ∃ u : ℝ, 0 ≤ u ∧ u < 1 ∧ Gen.runif.apply (realInterp .f64 calls) g [.i index, .f lo, .f hi] = .f (u * (hi - lo) + lo) := by
  refine ⟨_, by positivity, ?_, C59_runif_value hg index lo hi h0 h64⟩
  rw [div_lt_one (by positivity)]; exact_mod_cast Nat.mod_lt _ (by norm_num)

/-- **C59** So it lies in `[min, max)` for every index. -/
theorem C59_runif_range (hg : BitConsts .f64 g) (index : ℤ) (hi0 : 0 ≤ index) (hi64 : index < 2 ^ 64) {lo hi : ℝ} (h : lo < hi) :
    ∃ y, Gen.runif.apply (realInterp .f64 calls) g [.i index, .f lo, .f hi] = .f y ∧ lo ≤ y ∧ y < hi := by
  obtain ⟨u, h0, h1, hu⟩ := C59_runif_form (calls := calls) hg index lo hi hi0 hi64
  exact ⟨_, hu, by nlinarith, by nlinarith⟩

/-! ## C61 -/

/-- **C61** `nextafter` of a non-negative finite float that is not the largest: a larger float, and no float lies between. -/
theorem C61_nextafter (hF : F.Ok) {n : ℕ} (hn : n + 1 < F.maxPat) {x : ℝ} (hx : F.decode n = .f x) :
    ∃ y, Gen.nextafter.apply (realInterp F calls) g [.f x] = .f y ∧ x < y ∧
      ∀ (m : ℕ) (z : ℝ), m < 2 ^ F.width → F.decode m = .f z → x < z → y ≤ z := by
  have hu : (0 : ℝ) < (2 : ℝ) ^ (1 - (F.bias : ℤ) - F.mant) := by positivity
  rw [FloatFmt.decode_units hF (by omega)] at hx
  injection hx with hx
  subst hx
  have hmax : F.maxPat ≤ 2 ^ (F.mant + F.ebits) := by
    unfold FloatFmt.maxPat; rw [pow_add, Nat.mul_comm]; exact Nat.mul_le_mul_left _ (Nat.sub_le _ _)
  have hw : 2 ^ (F.mant + F.ebits) ≤ 2 ^ F.width := Nat.pow_le_pow_right (by norm_num) (by unfold FloatFmt.width; omega)
  have hlt : (((n + 1 : ℕ) : ℕ) : ℤ) < 2 ^ F.width := by exact_mod_cast (by omega : n + 1 < 2 ^ F.width)
  refine ⟨F.units (n + 1) * (2 : ℝ) ^ (1 - (F.bias : ℤ) - F.mant), ?_, ?_, ?_⟩
  · simp only [Gen.nextafter, ofFty_apply, List.map, bindParams]
    simp only [denoteBlock_expr, denote_fromBits, denote_add, denote_method, denote_v, denoteArgs_nil, envSet_one, if_true, real_meth, meth_to_bits,
      FloatFmt.encode_units hF (by omega : n < F.maxPat), int_1, real_bin, binRV]
    rw [show ((n : ℕ) : ℤ) + 1 = ((n + 1 : ℕ) : ℤ) by push_cast; rfl, real_fromBits F calls _ (by positivity) hlt, Int.toNat_natCast,
      FloatFmt.decode_units hF hn]
  · exact mul_lt_mul_of_pos_right (by exact_mod_cast FloatFmt.units_lt_succ n) hu
  · intro m z hm hz hlt
    have hx0 : (0 : ℝ) ≤ F.units n * (2 : ℝ) ^ (1 - (F.bias : ℤ) - F.mant) := by positivity
    rcases FloatFmt.finite_cases hF hm hz with ⟨-, rfl⟩ | ⟨k, -, -, rfl⟩
    · have h1 := lt_of_mul_lt_mul_right hlt hu.le
      have h2 : F.units n < F.units m := by exact_mod_cast h1
      have h3 := FloatFmt.units_strictMono.lt_iff_lt.1 h2
      have h4 : F.units (n + 1) ≤ F.units m := FloatFmt.units_strictMono.monotone (by omega)
      exact mul_le_mul_of_nonneg_right (by exact_mod_cast h4) hu.le
    · have : (0 : ℝ) ≤ F.units k * (2 : ℝ) ^ (1 - (F.bias : ℤ) - F.mant) := by positivity
      linarith

/-- **C61** The largest finite float has no successor: the result is infinity. -/
theorem C61_nextafter_largest (hF : F.Ok) :
    Gen.nextafter.apply (realInterp F calls) g [.f (F.units (F.maxPat - 1) * (2 : ℝ) ^ (1 - (F.bias : ℤ) - F.mant))] = .inf false := by
  have hb := FloatFmt.two_bias hF
  have hM : 0 < 2 ^ F.mant := by positivity
  have hmp : 0 < F.maxPat := by unfold FloatFmt.maxPat; exact Nat.mul_pos (by omega) hM
  have hle := FloatFmt.maxPat_le (F := F)
  have hw := FloatFmt.two_pow_width (F := F)
  have hltN : F.maxPat < 2 ^ F.width := by
    have : 0 < 2 ^ (F.mant + F.ebits) := by positivity
    omega
  simp only [Gen.nextafter, ofFty_apply, List.map, bindParams]
  simp only [denoteBlock_expr, denote_fromBits, denote_add, denote_method, denote_v, denoteArgs_nil, envSet_one, if_true, real_meth, meth_to_bits,
    FloatFmt.encode_units hF (by omega : F.maxPat - 1 < F.maxPat), int_1, real_bin, binRV]
  rw [show ((F.maxPat - 1 : ℕ) : ℤ) + 1 = (F.maxPat : ℤ) by omega, real_fromBits F calls _ (by positivity) (by exact_mod_cast hltN), Int.toNat_natCast]
  have e1 := FloatFmt.frac_of (F := F) (2 ^ F.ebits - 1) 0 hM
  have e2 := FloatFmt.div_of (F := F) (2 ^ F.ebits - 1) 0 hM
  have e3 : F.maxPat / 2 ^ (F.mant + F.ebits) = 0 := by
    apply Nat.div_eq_of_lt
    have := FloatFmt.lt_of_exp (F := F) (E := 2 ^ F.ebits - 1) (f := 0) (by omega) hM
    exact this
  rw [Nat.add_zero] at e1 e2
  unfold FloatFmt.decode
  rw [e3]
  unfold FloatFmt.maxPat
  rw [e1, e2, Nat.mod_eq_of_lt (by omega)]
  simp

/-! ## C60 -/

theorem xor_sign {n : ℕ} (k : ℕ) (h : n < 2 ^ k) : 2 ^ k ^^^ n = 2 ^ k + n := by
  apply Nat.eq_of_testBit_eq
  intro i
  rw [Nat.testBit_xor, show 2 ^ k + n = 2 ^ k * 1 + n by ring, Nat.testBit_two_pow_mul_add _ h]
  by_cases hi : i < k
  · have hk : ¬ k = i := by omega
    simp [hi, Nat.testBit_two_pow, hk]
  · have : Nat.testBit n i = false := Nat.testBit_lt_two_pow (lt_of_lt_of_le h (Nat.pow_le_pow_right (by norm_num) (by omega)))
    rw [this, Bool.xor_false, Nat.testBit_two_pow]
    simp only [hi, if_false]
    by_cases e : k = i
    · subst e; simp
    · have h2 : 1 ≤ i - k := by omega
      rw [show (decide (k = i)) = false by simpa using e]
      obtain ⟨j, hj⟩ : ∃ j, i - k = j + 1 := ⟨i - k - 1, by omega⟩
      rw [hj, Nat.testBit_succ]; simp

theorem xor_sign' {n : ℕ} (k : ℕ) (h : n < 2 ^ k) : 2 ^ k ^^^ (2 ^ k + n) = n := by
  rw [← xor_sign k h, ← Nat.xor_assoc, Nat.xor_self, Nat.zero_xor]

theorem land_one (n : ℤ) : Int.land n 1 = n % 2 := by
  cases n with
  | ofNat k =>
    have : Int.land (Int.ofNat k) 1 = ((k &&& 1 : ℕ) : ℤ) := rfl
    rw [this, Nat.and_one_is_mod]; rfl
  | negSucc k =>
    have h : Int.land (Int.negSucc k) 1 = ((Nat.ldiff 1 k : ℕ) : ℤ) := rfl
    have h2 : Nat.ldiff 1 k = 1 - k % 2 := by
      apply Nat.eq_of_testBit_eq
      intro i
      rw [Nat.testBit_ldiff]
      cases i with
      | zero =>
        rcases Nat.mod_two_eq_zero_or_one k with h | h <;> simp [Nat.testBit_zero, h]
      | succ j =>
        have : Nat.testBit 1 (j + 1) = false := by simp [Nat.testBit_succ]
        rw [this, Bool.false_and]
        rcases Nat.mod_two_eq_zero_or_one k with h | h <;> simp [Nat.testBit_succ, h]
    rw [h, h2]
    omega

theorem fmtOf_ok (b32 : Bool) : (fmtOf b32).Ok := by cases b32 <;> exact ⟨by decide, by decide⟩

theorem fmtOf_width (b32 : Bool) : (fmtOf b32).width - 1 = (fmtOf b32).mant + (fmtOf b32).ebits := rfl

/-- The pattern of a finite float, and what flipping the sign bit makes of it. -/
theorem flip_sign (hF : F.Ok) {n : ℕ} {y : ℝ} (hn : n < 2 ^ F.width) (hy : F.decode n = .f y) :
    F.encode y < 2 ^ F.width ∧ F.decode (F.encode y) = .f y ∧ 2 ^ (F.mant + F.ebits) ^^^ F.encode y < 2 ^ F.width ∧
      F.decode (2 ^ (F.mant + F.ebits) ^^^ F.encode y) = .f (-y) := by
  have hw := FloatFmt.two_pow_width (F := F)
  have hle := FloatFmt.maxPat_le (F := F)
  have pos : ∀ k, k < F.maxPat → F.encode (F.units k * (2 : ℝ) ^ (1 - (F.bias : ℤ) - F.mant)) = k := fun k hk => FloatFmt.encode_units hF hk
  rcases FloatFmt.finite_cases hF hn hy with ⟨hn', rfl⟩ | ⟨k, hk, -, rfl⟩
  · rw [pos n hn', xor_sign _ (by omega)]
    exact ⟨hn, FloatFmt.decode_units hF hn', by omega, FloatFmt.decode_neg hF hn'⟩
  · rcases Nat.eq_zero_or_pos k with h0 | h0
    · subst h0
      have hz := pos 0 hk
      rw [FloatFmt.units_zero, Nat.cast_zero, zero_mul] at hz ⊢
      rw [neg_zero, hz, xor_sign _ (by positivity)]
      have d1 := FloatFmt.decode_units hF hk
      have d2 := FloatFmt.decode_neg hF hk
      rw [FloatFmt.units_zero, Nat.cast_zero, zero_mul] at d1 d2
      rw [neg_zero] at d2
      refine ⟨by positivity, d1, by omega, ?_⟩
      rw [neg_zero]; exact d2
    · have hpos : (0 : ℝ) < F.units k * (2 : ℝ) ^ (1 - (F.bias : ℤ) - F.mant) := by
        have := FloatFmt.units_pos (F := F) h0
        positivity
      rw [FloatFmt.encode_neg hpos, pos k hk, xor_sign' _ (by omega), neg_neg]
      exact ⟨by omega, FloatFmt.decode_neg hF hk, by omega, FloatFmt.decode_units hF hk⟩

theorem negate_on_odd_core (b32 : Bool) (t : ℤ) {n : ℕ} {x y : ℝ} (hn : n < 2 ^ (fmtOf b32).width) (hy : (fmtOf b32).decode n = .f y)
    (hx : clampZ (-2 ^ ((fmtOf b32).width - 1)) (2 ^ ((fmtOf b32).width - 1) - 1) (truncR x) = t) :
    (Gen.negate_on_odd b32).apply (realInterp (fmtOf b32) calls) g [.f x, .f y] = .f (if t % 2 = 1 then -y else y) := by
  have hF := fmtOf_ok b32
  obtain ⟨e1, e2, e3, e4⟩ := flip_sign hF hn hy
  have hsh : (Gen.ilit (if b32 = true then "31" else "63") "i32").denote (realInterp (fmtOf b32) calls)
      (envSet (envSet g "x" (.f x)) "y" (.f y)) = .i (((fmtOf b32).mant + (fmtOf b32).ebits : ℕ) : ℤ) := by
    cases b32 <;> exact C68_ilit rfl
  have hw := FloatFmt.two_pow_width (F := fmtOf b32)
  simp only [Gen.negate_on_odd, ofFty_apply, List.map, bindParams]
  simp only [denoteBlock_letT, denoteBlock_expr, denote_v, denote_method, denoteArgs_nil, denote_paren, denote_as, denote_binary, denote_fromBits,
    envSet_one, real_bin, real_meth, real_cast, String.reduceEq, if_true, if_false, hsh, int_1, castRV, binRV, methRV, hx, land_one, Int.toNat_natCast]
  rcases Int.emod_two_eq_zero_or_one t with ht | ht
  · rw [ht]
    have hxor : Int.xor (0 * 2 ^ ((fmtOf b32).mant + (fmtOf b32).ebits) % 2 ^ (fmtOf b32).width) (((fmtOf b32).encode y : ℕ) : ℤ)
        = (((fmtOf b32).encode y : ℕ) : ℤ) := by
      rw [zero_mul, Int.zero_emod]
      have : Int.xor 0 (((fmtOf b32).encode y : ℕ) : ℤ) = ((0 ^^^ (fmtOf b32).encode y : ℕ) : ℤ) := rfl
      rw [this, Nat.zero_xor]
    rw [hxor, real_fromBits _ calls _ (by positivity) (by exact_mod_cast e1), Int.toNat_natCast, e2]
    simp
  · rw [ht]
    have hxor : Int.xor (1 * 2 ^ ((fmtOf b32).mant + (fmtOf b32).ebits) % 2 ^ (fmtOf b32).width) (((fmtOf b32).encode y : ℕ) : ℤ)
        = ((2 ^ ((fmtOf b32).mant + (fmtOf b32).ebits) ^^^ (fmtOf b32).encode y : ℕ) : ℤ) := by
      have hlt : (2 : ℤ) ^ ((fmtOf b32).mant + (fmtOf b32).ebits) < 2 ^ (fmtOf b32).width := by
        have : 0 < 2 ^ ((fmtOf b32).mant + (fmtOf b32).ebits) := by positivity
        exact_mod_cast (by omega : 2 ^ ((fmtOf b32).mant + (fmtOf b32).ebits) < 2 ^ (fmtOf b32).width)
      rw [one_mul, Int.emod_eq_of_lt (by positivity) hlt]
      have : ((2 : ℤ) ^ ((fmtOf b32).mant + (fmtOf b32).ebits)) = ((2 ^ ((fmtOf b32).mant + (fmtOf b32).ebits) : ℕ) : ℤ) := by push_cast; rfl
      rw [this]; rfl
    rw [hxor, real_fromBits _ calls _ (by positivity) (by exact_mod_cast e3), Int.toNat_natCast, e4]
    simp

/-- **C60** `negate_on_odd(x, y)` for every finite float `y` and every `x` whose integer part fits the integer type: the sign changes exactly
when the integer part is odd. -/
theorem C60_negate_on_odd_partial (b32 : Bool) {n : ℕ} {x y : ℝ} (hn : n < 2 ^ (fmtOf b32).width) (hy : (fmtOf b32).decode n = .f y)
    (h1 : -2 ^ ((fmtOf b32).width - 1) ≤ truncR x) (h2 : truncR x < 2 ^ ((fmtOf b32).width - 1)) :
    (Gen.negate_on_odd b32).apply (realInterp (fmtOf b32) calls) g [.f x, .f y] = .f (if truncR x % 2 = 1 then -y else y) :=
  negate_on_odd_core b32 _ hn hy (clampZ_self h1 (by omega))

/-- **C60** Too large numbers are taken as odd, because the cast stops at the largest integer: the sign changes although the number is even. -/
theorem C60_large_wrong (b32 : Bool) :
    (Gen.negate_on_odd b32).apply (realInterp (fmtOf b32) calls) g [.f (2 ^ (fmtOf b32).width), .f 1] = .f (-1) ∧
      truncR (2 ^ (fmtOf b32).width) % 2 = 0 := by
  have ht : truncR ((2 : ℝ) ^ (fmtOf b32).width) = 2 ^ (fmtOf b32).width := by
    have := truncR_int (2 ^ (fmtOf b32).width); push_cast at this; exact this
  constructor
  · have hone : (fmtOf b32).decode ((fmtOf b32).bias * 2 ^ (fmtOf b32).mant + 0) = .f 1 := by
      have hb := FloatFmt.two_bias (fmtOf_ok b32)
      have hb1 := FloatFmt.bias_pos (fmtOf_ok b32)
      rw [FloatFmt.decode_normal (by omega) (by omega) (by positivity)]; simp
    have hlt : (fmtOf b32).bias * 2 ^ (fmtOf b32).mant + 0 < 2 ^ (fmtOf b32).width := by cases b32 <;> decide +kernel
    have hc : clampZ (-2 ^ ((fmtOf b32).width - 1)) (2 ^ ((fmtOf b32).width - 1) - 1) (truncR ((2 : ℝ) ^ (fmtOf b32).width))
        = 2 ^ ((fmtOf b32).width - 1) - 1 := by rw [ht]; cases b32 <;> decide +kernel
    rw [negate_on_odd_core b32 _ hlt hone hc, if_pos (by cases b32 <;> decide +kernel)]
  · rw [ht]; cases b32 <;> decide +kernel
end

/-! ## Inputs meeting the hypotheses -/

/-- The bit constants of the format, and `log2 e`. -/
noncomputable def demoBits (F : FloatFmt) : Name → RV
  | ["EXP2_ONE"] => .f (F.bias * 2 ^ F.mant)
  | ["EXP2_SCALE"] => .f (2 ^ F.mant)
  | ["EXP2_MIN"] => .f (-F.bias)
  | ["EXP2_MAX"] => .f F.bias
  | ["LOG2_SHIFT"] => .i F.mant
  | ["LOG2_OFFSET"] => .i F.bias
  | ["ONE_BITS"] => .i ((F.bias * 2 ^ F.mant : ℕ) : ℤ)
  | ["ONE_MASK"] => .i ((2 ^ F.mant - 1 : ℕ) : ℤ)
  | ["INFINITY"] => .inf false
  | ["NAN"] => .nan
  | ["MIN_POSITIVE"] => .f ((2 : ℝ) ^ (1 - (F.bias : ℤ)))
  | ["LOG2_E"] => .f (Real.logb 2 (Real.exp 1))
  | _ => .junk

theorem demo_bits (F : FloatFmt) : BitConsts F (demoBits F) := by constructor <;> rfl

noncomputable def demoPow : String → ℝ → ℝ
  | "E", x => (2 : ℝ) ^ x
  | "M", x => (2 : ℝ) ^ x - 1
  | "L", x => Real.logb 2 (x + 3 / 2)
  | _, _ => 0

example : (Gen.exp2 (app "E" [v "x"])).apply (realInterp .f64 (demoCalls .f64 (demoBits .f64) demoPow)) (demoBits .f64) [.f (71 / 7)]
    = .f ((2 : ℝ) ^ (71 / 7 : ℝ)) := by
  have hb : FloatFmt.f64.bias = 1023 := rfl
  obtain ⟨y, hy, he⟩ := C53_exp2_partial (fmtOf_ok false) (demo_bits .f64) (demo_linked .f64 (demoBits .f64) demoPow)
    (demo_approximates _ _ _ "x" "E" (by decide) _) (71 / 7) (by rw [show fmtOf false = FloatFmt.f64 from rfl, hb]; norm_num)
    (by rw [show fmtOf false = FloatFmt.f64 from rfl, hb]; norm_num)
  rw [show fmtOf false = FloatFmt.f64 from rfl] at hy
  rw [hy]
  simp only [mul_zero, zero_mul] at he
  rw [sub_eq_zero.1 (abs_eq_zero.1 (le_antisymm he (abs_nonneg _)))]

example : (Gen.log2 (app "L" [v "x"])).apply (realInterp .f32 (demoCalls .f32 (demoBits .f32) demoPow)) (demoBits .f32) [.f 12] = .f (Real.logb 2 12) := by
  have hb : FloatFmt.f32.bias = 127 := rfl
  have hm : FloatFmt.f32.mant = 23 := rfl
  obtain ⟨y, hy, he⟩ := C54_log2 (F := .f32) (fmtOf_ok true) (demo_bits .f32)
    (demo_approximates _ (demoBits .f32) demoPow "x" "L" (by decide) _) (E := 130) (f := 2 ^ 22) (by norm_num) (by decide) (by decide)
  have h12 : ((1 : ℝ) + ((2 ^ 22 : ℕ) : ℝ) / 2 ^ FloatFmt.f32.mant) * (2 : ℝ) ^ (((130 : ℕ) : ℤ) - FloatFmt.f32.bias) = 12 := by
    rw [hb, hm]; norm_num
  rw [h12] at hy he
  rw [hy, sub_eq_zero.1 (abs_eq_zero.1 (le_antisymm he (abs_nonneg _)))]

example : ∃ y, Gen.runif.apply (realInterp .f64 fun _ _ => .junk) (demoBits .f64) [.i 12345, .f (-3), .f 4] = .f y ∧ -3 ≤ y ∧ y < 4 :=
  C59_runif_range (demo_bits _) _ (by norm_num) (by norm_num) (by norm_num)

example : ∃ y, Gen.nextafter.apply (realInterp .f32 fun _ _ => .junk) (demoBits .f32) [.f 1] = .f y ∧ 1 < y ∧
    ∀ (m : ℕ) (z : ℝ), m < 2 ^ FloatFmt.f32.width → FloatFmt.f32.decode m = .f z → 1 < z → y ≤ z := by
  refine C61_nextafter (fmtOf_ok true) (n := 127 * 2 ^ 23 + 0) (by decide +kernel) ?_
  have hb : FloatFmt.f32.bias = 127 := rfl
  have := FloatFmt.decode_normal (F := .f32) (E := 127) (f := 0) (by norm_num) (by decide) (by decide)
  rw [hb] at this
  exact this.trans (by norm_num)

end Verif

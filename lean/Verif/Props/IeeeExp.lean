import Verif.Props.IeeeTrig

/-!
# C83 for `exp2`, `exp_m1` and `log2`
-/

namespace Verif
open RExpr Dec

/-- Rounding stays below a float that is not infinite. -/
theorem FloatFmt.rne_le {F : FloatFmt} {x z : ℝ} (hz : F.Repr z) (h : |x| ≤ z) (hb : z < 2 ^ (F.bias + 1)) : F.rne x = .f (F.rnd x) := by
  unfold FloatFmt.rne
  rw [if_pos (lt_of_le_of_lt (FloatFmt.abs_rnd_le hz h) hb)]

/-! ## The constants -/

theorem bits_fmtOf (b32 : Bool) : (fmtOf b32).ebits ≤ (fmtOf b32).mant := by cases b32 <;> decide

theorem bias_lt_mant (b32 : Bool) : (fmtOf b32).bias * 4 ≤ 2 ^ (fmtOf b32).mant := by cases b32 <;> decide

section
variable {F : FloatFmt} {calls : String → List RV → RV} {env : Name → RV}

theorem flitIE {s sfx : String} {d : Dec} (h : parseDec s.toList = some d) {x : ℝ} (hd : (d.val : ℝ) = x) (hr : F.Repr x) (hb : |x| < 2 ^ (F.bias + 1)) :
    (Gen.flit s sfx).denote (ieeeInterp F calls) env = .f x := by
  have : (Gen.flit s sfx).denote (ieeeInterp F calls) env = F.rne (d.val : ℝ) := by
    simp [Gen.flit, RExpr.denote, ieeeInterp, litIE, litRV, litValue, h]
  rw [this, hd, FloatFmt.rne_repr hr hb]

theorem ilitIE {s sfx : String} {n : ℤ} (h : parseDec s.toList = some ⟨n, 0⟩) : (Gen.ilit s sfx).denote (ieeeInterp F calls) env = .i n := by
  simp [Gen.ilit, RExpr.denote, ieeeInterp, litIE, litRV, litValue, h, Dec.val]

end

/-- **C83** Rounding leaves the bit-pattern constants of the generated code what they are. -/
theorem C83_bit_constants (b32 : Bool) (calls : String → List RV → RV) (env : Name → RV) :
    let val := fun it : RItem => it.constExpr.denote (ieeeInterp (fmtOf b32) calls) env
    val (Gen.EXP2_ONE b32) = .f ((fmtOf b32).bias * 2 ^ (fmtOf b32).mant) ∧
    val (Gen.EXP2_SCALE b32) = .f (2 ^ (fmtOf b32).mant) ∧
    val (Gen.EXP2_MIN b32) = .f (-(fmtOf b32).bias) ∧
    val (Gen.EXP2_MAX b32) = .f (fmtOf b32).bias ∧
    val (Gen.LOG2_SHIFT b32) = .i (fmtOf b32).mant ∧
    val (Gen.LOG2_OFFSET b32) = .i (fmtOf b32).bias ∧
    val (Gen.ONE_BITS b32) = .i (((fmtOf b32).bias * 2 ^ (fmtOf b32).mant : ℕ) : ℤ) ∧
    val (Gen.ONE_MASK b32) = .i ((2 ^ (fmtOf b32).mant - 1 : ℕ) : ℤ) := by
  have hF := FloatFmt.wide_fmtOf b32
  have hb4 := bias_lt_mant b32
  have hb4R : ((fmtOf b32).bias : ℝ) * 4 ≤ 2 ^ (fmtOf b32).mant := by exact_mod_cast hb4
  have hb0 : (0 : ℝ) ≤ (fmtOf b32).bias := by positivity
  have hone : (fmtOf b32).Repr ((fmtOf b32).bias * 2 ^ (fmtOf b32).mant) := by
    refine FloatFmt.repr_of_multiple (k := (fmtOf b32).bias) (e := (fmtOf b32).mant) (by rw [zpow_natCast]; push_cast; rfl) (by have := hF.bias_ge; omega) ?_
    rw [abs_of_nonneg (by positivity), zpow_add₀ (by norm_num), zpow_natCast, show ((fmtOf b32).mant : ℤ) + 1 = (((fmtOf b32).mant + 1 : ℕ) : ℤ) by push_cast; rfl, zpow_natCast, pow_succ]
    refine mul_le_mul_of_nonneg_right ?_ (by positivity)
    linarith
  have hscale : (fmtOf b32).Repr (2 ^ (fmtOf b32).mant) := by
    have := FloatFmt.repr_zpow (F := fmtOf b32) (e := (fmtOf b32).mant) (by have := hF.bias_ge; omega)
    rwa [zpow_natCast] at this
  have hmax : (fmtOf b32).Repr ((fmtOf b32).bias : ℝ) := by
    have := FloatFmt.repr_int hF.ok (k := (fmtOf b32).bias) (by
      rw [abs_of_nonneg (by positivity)]
      calc ((fmtOf b32).bias : ℤ) ≤ 2 ^ (fmtOf b32).mant := by have : ((fmtOf b32).bias : ℤ) * 4 ≤ 2 ^ (fmtOf b32).mant := by exact_mod_cast hb4
                                                               omega
        _ ≤ _ := pow_le_pow_right₀ (by norm_num) (by omega))
    exact_mod_cast this
  have hfin : (2 : ℝ) ^ (2 * (fmtOf b32).mant) < 2 ^ ((fmtOf b32).bias + 1) := pow_lt_pow_right₀ (by norm_num) (by cases b32 <;> decide)
  have h1m : (1 : ℝ) ≤ 2 ^ (fmtOf b32).mant := one_le_pow₀ (by norm_num)
  rw [two_mul, pow_add] at hfin
  have fone : |((fmtOf b32).bias * 2 ^ (fmtOf b32).mant : ℝ)| < 2 ^ ((fmtOf b32).bias + 1) := by
    rw [abs_of_nonneg (by positivity)]
    refine lt_of_le_of_lt (mul_le_mul_of_nonneg_right ?_ (by positivity)) hfin
    linarith
  have fscale : |(2 ^ (fmtOf b32).mant : ℝ)| < 2 ^ ((fmtOf b32).bias + 1) := by
    rw [abs_of_nonneg (by positivity)]; nlinarith
  have fmax : |((fmtOf b32).bias : ℝ)| < 2 ^ ((fmtOf b32).bias + 1) := by
    rw [abs_of_nonneg (by positivity)]; nlinarith
  cases b32 with
  | false =>
    have hb64 : (fmtOf false).bias = 1023 := rfl
    have hm64 : (fmtOf false).mant = 52 := rfl
    simp only [if_true, if_false, Bool.false_eq_true, RItem.constExpr, Gen.EXP2_ONE, Gen.EXP2_SCALE, Gen.EXP2_MIN, Gen.EXP2_MAX,
      Gen.LOG2_SHIFT, Gen.LOG2_OFFSET, Gen.ONE_BITS, Gen.ONE_MASK, Gen.constItem]
    refine ⟨?_, ?_, ?_, ?_, ?_, ?_, ?_, ?_⟩
    · exact flitIE (d := ⟨46071824188000174080, 1⟩) rfl (by rw [hb64, hm64]; norm_num [Dec.val]) hone fone
    · exact flitIE (d := ⟨45035996273704960, 1⟩) rfl (by rw [hm64]; norm_num [Dec.val]) hscale fscale
    · rw [denote_neg, flitIE (d := ⟨10230, 1⟩) rfl (by rw [hb64]; norm_num [Dec.val]) hmax fmax]; rfl
    · exact flitIE (d := ⟨10230, 1⟩) rfl (by rw [hb64]; norm_num [Dec.val]) hmax fmax
    · rw [ilitIE (n := 52) rfl]; rfl
    · rw [ilitIE (n := 1023) rfl]; rfl
    · rw [ilitIE (n := 4607182418800017408) rfl]; rfl
    · rw [ilitIE (n := 4503599627370495) rfl]; rfl
  | true =>
    have hb32 : (fmtOf true).bias = 127 := rfl
    have hm32 : (fmtOf true).mant = 23 := rfl
    simp only [if_true, if_false, Bool.false_eq_true, RItem.constExpr, Gen.EXP2_ONE, Gen.EXP2_SCALE, Gen.EXP2_MIN, Gen.EXP2_MAX,
      Gen.LOG2_SHIFT, Gen.LOG2_OFFSET, Gen.ONE_BITS, Gen.ONE_MASK, Gen.constItem]
    refine ⟨?_, ?_, ?_, ?_, ?_, ?_, ?_, ?_⟩
    · exact flitIE (d := ⟨10653532160, 1⟩) rfl (by rw [hb32, hm32]; norm_num [Dec.val]) hone fone
    · exact flitIE (d := ⟨83886080, 1⟩) rfl (by rw [hm32]; norm_num [Dec.val]) hscale fscale
    · rw [denote_neg, flitIE (d := ⟨1270, 1⟩) rfl (by rw [hb32]; norm_num [Dec.val]) hmax fmax]; rfl
    · exact flitIE (d := ⟨1270, 1⟩) rfl (by rw [hb32]; norm_num [Dec.val]) hmax fmax
    · rw [ilitIE (n := 23) rfl]; rfl
    · rw [ilitIE (n := 127) rfl]; rfl
    · rw [ilitIE (n := 1065353216) rfl]; rfl
    · rw [ilitIE (n := 8388607) rfl]; rfl

/-! ## The polynomials -/

noncomputable def exp2Ops (b32 : Bool) : ℝ := if b32 then 15 else 23
noncomputable def expm1Ops (b32 : Bool) : ℝ := if b32 then 22 else 35
noncomputable def log2Ops (b32 : Bool) : ℝ := if b32 then 11 else 24

section
variable {ext : BdExt} {fx : FloatExt} {b32 : Bool} {u w : ℝ}

theorem exp2_code_ieee (h : IeeeOk fx b32 u w) (hu : u ≤ 1 / 1000) (hw : w ≤ 1 / 1000) (hf : 5 ≤ ext.fuel) :
    ∃ e, polynomialCode ext fx b32 .exp2 ⟨-5, 1⟩ ⟨5, 1⟩ = .ok e ∧
    ∀ calls, ApproxIE (ieeeInterp (fmtOf b32) calls) "x" e.toR (fun x => (2 : ℝ) ^ x) (Set.Icc (-(1 / 2)) (1 / 2))
      (exp2Err b32 + 2 * u + 12 * w + exp2Ops b32 * (fmtOf b32).eps) := by
  have hn := h.nonneg
  have hε := FloatFmt.eps_pos (F := fmtOf b32)
  cases b32 with
  | true =>
    obtain ⟨e, h1, h2⟩ := h.polynomialCode_within_ieee (ext := ext) hu hw .exp2 rfl (by norm_num) (by decide) (exp2_terms ext hf 7 20 (2 / 10 ^ 10) (by decide +kernel)) (A' := 2)
      (T := 205 / 100) half_val.1 half_val.2 (by norm_num) (by norm_num) (nearPoly_exp2 7) (by positivity) (by norm_num) (by norm_num) (by norm_num) (by norm_num) (by norm_num)
    refine ⟨e, h1, fun calls => (h2 calls).mono le_rfl ?_⟩
    simp only [exp2Err, exp2Ops, if_true, if_false, Bool.false_eq_true]
    push_cast
    linarith
  | false =>
    obtain ⟨e, h1, h2⟩ := h.polynomialCode_within_ieee (ext := ext) hu hw .exp2 rfl (by norm_num) (by decide) (exp2_terms ext hf 11 40 (1 / 10 ^ 17) (by decide +kernel)) (A' := 2)
      (T := 205 / 100) half_val.1 half_val.2 (by norm_num) (by norm_num) (nearPoly_exp2 11) (by positivity) (by norm_num) (by norm_num) (by norm_num) (by norm_num) (by norm_num)
    refine ⟨e, h1, fun calls => (h2 calls).mono le_rfl ?_⟩
    simp only [exp2Err, exp2Ops, if_true, if_false, Bool.false_eq_true]
    push_cast
    linarith

theorem exp_m1_code_ieee (h : IeeeOk fx b32 u w) (hu : u ≤ 1 / 1000) (hw : w ≤ 1 / 1000) (hf : 5 ≤ ext.fuel) :
    ∃ e, polynomialCode ext fx b32 .exp_m1 ⟨-5, 1⟩ ⟨5, 1⟩ = .ok e ∧
    ∀ calls, ApproxIE (ieeeInterp (fmtOf b32) calls) "x" e.toR (fun x => (2 : ℝ) ^ x - 1) (Set.Icc (-(1 / 2)) (1 / 2))
      (exp2Err b32 + 3 * u + 12 * w + expm1Ops b32 * (fmtOf b32).eps) := by
  have hn := h.nonneg
  have hε := FloatFmt.eps_pos (F := fmtOf b32)
  cases b32 with
  | true =>
    obtain ⟨e, h1, h2⟩ := h.polynomialCode_within_ieee (ext := ext) hu hw .exp_m1 rfl (by norm_num) (by decide) (exp_m1_terms ext hf 7 20 (2 / 10 ^ 10) (by decide +kernel)) (A' := 3)
      (T := 307 / 100) half_val.1 half_val.2 (by norm_num) (by norm_num) (nearPoly_exp_m1 7) (by positivity) (by norm_num) (by norm_num) (by norm_num) (by norm_num) (by norm_num)
    refine ⟨e, h1, fun calls => (h2 calls).mono le_rfl ?_⟩
    simp only [exp2Err, expm1Ops, if_true, if_false, Bool.false_eq_true]
    push_cast
    linarith
  | false =>
    obtain ⟨e, h1, h2⟩ := h.polynomialCode_within_ieee (ext := ext) hu hw .exp_m1 rfl (by norm_num) (by decide) (exp_m1_terms ext hf 11 40 (1 / 10 ^ 17) (by decide +kernel)) (A' := 3)
      (T := 307 / 100) half_val.1 half_val.2 (by norm_num) (by norm_num) (nearPoly_exp_m1 11) (by positivity) (by norm_num) (by norm_num) (by norm_num) (by norm_num) (by norm_num)
    refine ⟨e, h1, fun calls => (h2 calls).mono le_rfl ?_⟩
    simp only [exp2Err, expm1Ops, if_true, if_false, Bool.false_eq_true]
    push_cast
    linarith

theorem log2_code_ieee (h : IeeeOk fx b32 u w) (hu : u ≤ 1 / 1000) (hw : w ≤ 1 / 1000) (hf : 5 ≤ ext.fuel) :
    ∃ e, polynomialCode ext fx b32 .log2 ⟨-5, 1⟩ ⟨5, 1⟩ = .ok e ∧
    ∀ calls, ApproxIE (ieeeInterp (fmtOf b32) calls) "x" e.toR (fun x => Real.logb 2 (x + 3 / 2)) (Set.Icc (-(1 / 2)) (1 / 2))
      (log2Err b32 + 2 * u + 20 * w + log2Ops b32 * (fmtOf b32).eps) := by
  have hn := h.nonneg
  have hε := FloatFmt.eps_pos (F := fmtOf b32)
  cases b32 with
  | true =>
    obtain ⟨e, h1, h2⟩ := h.polynomialCode_within_ieee (ext := ext) hu hw .log2 rfl (by norm_num) (by decide) (log2_sharp_10 ext hf).1 (A' := 1171 / 1000)
      (T := 121 / 100) half_val.1 half_val.2 (by norm_num) (by norm_num) (log2_sharp_10 ext hf).2 (by positivity) (by norm_num) (by norm_num) (by norm_num) (by norm_num) (by norm_num)
    refine ⟨e, h1, fun calls => (h2 calls).mono le_rfl ?_⟩
    simp only [log2Err, log2Ops, if_true, if_false, Bool.false_eq_true]
    push_cast
    linarith
  | false =>
    obtain ⟨e, h1, h2⟩ := h.polynomialCode_within_ieee (ext := ext) hu hw .log2 rfl (by norm_num) (by decide) (log2_sharp_20 ext hf).1 (A' := 1171 / 1000)
      (T := 123 / 100) half_val.1 half_val.2 (by norm_num) (by norm_num) (log2_sharp_20 ext hf).2 (by positivity) (by norm_num) (by norm_num) (by norm_num) (by norm_num) (by norm_num)
    refine ⟨e, h1, fun calls => (h2 calls).mono le_rfl ?_⟩
    simp only [log2Err, log2Ops, if_true, if_false, Bool.false_eq_true]
    push_cast
    linarith

end

/-! ## `exp2` -/

section
variable {F : FloatFmt} {calls : String → List RV → RV} {g : Name → RV}

/-- The pattern `exp2` builds from an integer of the normal range: no rounding takes place. -/
theorem scale_ieee (hF : F.Wide) (hm : F.ebits ≤ F.mant) (hg : BitConsts F g) (r : ℤ) (h1 : 1 - (F.bias : ℤ) ≤ r) (h2 : r ≤ F.bias) (env : Name → RV)
    (hr : env ["r"] = .f r) (he : ∀ s, s ≠ "r" → s ≠ "x" → s ≠ "arg" → s ≠ "scaled" → env [s] = g [s]) :
    Gen.scaleBits.denote (ieeeInterp F calls) env = .f ((2 : ℝ) ^ r) := by
  have hs := he "EXP2_SCALE" (by decide) (by decide) (by decide) (by decide)
  have ho := he "EXP2_ONE" (by decide) (by decide) (by decide) (by decide)
  rw [hg.exp2_scale] at hs
  rw [hg.exp2_one] at ho
  obtain ⟨E, hE⟩ : ∃ E : ℕ, (E : ℤ) = r + F.bias := ⟨(r + F.bias).toNat, by omega⟩
  have hb := FloatFmt.two_bias hF.ok
  have hval : (r : ℝ) * 2 ^ F.mant + F.bias * 2 ^ F.mant = ((E * 2 ^ F.mant + 0 : ℕ) : ℤ) := by
    have : (E : ℝ) = r + F.bias := by exact_mod_cast hE
    push_cast; rw [this]; ring
  have hlt := FloatFmt.lt_of_exp (F := F) (E := E) (f := 0) (by omega) (by positivity)
  have hlt2 : E * 2 ^ F.mant + 0 < 2 ^ F.width := lt_of_lt_of_le hlt (Nat.pow_le_pow_right (by norm_num) (by unfold FloatFmt.width; omega))
  have hltZ : ((E * 2 ^ F.mant + 0 : ℕ) : ℤ) < 2 ^ F.width := by exact_mod_cast hlt2
  have hEm : E < 2 ^ F.mant := lt_of_lt_of_le (by omega) (Nat.pow_le_pow_right (by norm_num) hm)
  have hrep : F.Repr (((E * 2 ^ F.mant + 0 : ℕ) : ℤ) : ℝ) := by
    refine FloatFmt.repr_of_multiple (k := E) (e := F.mant) (by rw [zpow_natCast]; push_cast; ring) (by have := hF.bias_ge; omega) ?_
    rw [abs_of_nonneg (by positivity), zpow_add₀ (by norm_num), zpow_natCast, show (F.mant : ℤ) + 1 = ((F.mant + 1 : ℕ) : ℤ) by push_cast; rfl, zpow_natCast, pow_succ]
    push_cast
    have : (E : ℝ) < 2 ^ F.mant := by exact_mod_cast hEm
    rw [add_zero]
    exact mul_le_mul_of_nonneg_right (by linarith [show (0 : ℝ) < 2 ^ F.mant by positivity]) (by positivity)
  have hfin : |(((E * 2 ^ F.mant + 0 : ℕ) : ℤ) : ℝ)| < 2 ^ (F.bias + 1) := by
    rw [abs_of_nonneg (by positivity)]
    have h3 : (((E * 2 ^ F.mant + 0 : ℕ) : ℤ) : ℝ) < 2 ^ F.width := by exact_mod_cast hltZ
    exact lt_of_lt_of_le h3 (pow_le_pow_right₀ (by norm_num) (by have := hF.width; omega))
  simp only [Gen.scaleBits, denote_fromBits, denote_as, denote_paren, denote_method, denote_v, denoteArgs_cons, denoteArgs_nil, hr, hs, ho,
    ieee_meth, methIE_mul_add, ieee_cast, hval, FloatFmt.rne_repr hrep hfin, castIE_uty, truncR_int]
  rw [clampZ_self (by positivity) (by omega), ieee_fromBits F calls _ (by positivity) hltZ, Int.toNat_natCast,
    FloatFmt.decode_normal (by omega) (by omega) (by positivity)]
  have : (E : ℤ) - F.bias = r := by omega
  rw [this]; simp

/-- What `round` and the subtraction give in the range of exponents. -/
theorem round_exponent_ieee (hF : F.Wide) (hb4 : F.bias * 4 ≤ 2 ^ F.mant) (hl : LinkedIE F calls g Gen.round) {a : ℝ} (hr : F.Repr a)
    (h1 : 1 - (F.bias : ℝ) ≤ a) (h2 : a ≤ F.bias) :
    ∃ (r : ℤ) (x : ℝ), calls "round" [.f a] = .f r ∧ F.rne (a - r) = .f x ∧ |x| ≤ 1 / 2 ∧ |x - (a - r)| ≤ F.eps / 2 ∧ 1 - (F.bias : ℤ) ≤ r ∧ r ≤ F.bias := by
  have hb4R : (F.bias : ℝ) * 4 ≤ 2 ^ F.mant := by exact_mod_cast hb4
  have hb1 : (29 : ℝ) ≤ F.bias := by exact_mod_cast hF.bias_ge.2
  have he := FloatFmt.eps_le hF
  have hε := FloatFmt.eps_pos (F := F)
  have ha : |a| ≤ F.bias := abs_le.2 ⟨by linarith, h2⟩
  obtain ⟨r, hn, hd1, hd2, -, hnb⟩ := round_ieee (calls := calls) (g := g) hF hr (by linarith)
  have hx := abs_le.1 hd1
  have hy := abs_le.1 hd2
  have hfin : |a - r| ≤ 2 ^ F.bias := by
    have h3 := (FloatFmt.bias_pow_ge hF).1
    rw [abs_le]; norm_num at *; constructor <;> linarith
  refine ⟨r, F.rnd (a - r), by rw [← hn]; exact hl _, FloatFmt.rne_f hF.ok hfin, hd1, hd2, ?_, ?_⟩
  · have h3 : (-(F.bias : ℤ) : ℝ) < r := by push_cast; norm_num at he; linarith
    have : -(F.bias : ℤ) < r := by exact_mod_cast h3
    omega
  · have h3 : (r : ℝ) < (F.bias : ℤ) + 1 := by push_cast; norm_num at he; linarith
    have : r < (F.bias : ℤ) + 1 := by exact_mod_cast h3
    omega

theorem two_pow_sub_one {t : ℝ} (ht : |t| ≤ 1) : |(2 : ℝ) ^ t - 1| ≤ 7 / 5 * |t| := by
  have hl := Real.log_two_lt_d9
  have hl0 := Real.log_two_gt_d9
  rw [Real.rpow_def_of_pos (by norm_num)]
  have h1 : |Real.log 2 * t| ≤ 7 / 10 * |t| := by
    rw [abs_mul, abs_of_pos (by linarith)]
    exact mul_le_mul_of_nonneg_right (by linarith) (abs_nonneg t)
  have h2 := Real.abs_exp_sub_one_le (x := Real.log 2 * t) (by linarith)
  linarith

/-- Values of `2^x` on the reduced interval. -/
theorem two_pow_half {x : ℝ} (hx : |x| ≤ 1 / 2) : (0 : ℝ) < 2 ^ x ∧ (2 : ℝ) ^ x ≤ 142 / 100 := by
  refine ⟨by positivity, ?_⟩
  calc (2 : ℝ) ^ x ≤ (2 : ℝ) ^ (1 / 2 : ℝ) := Real.rpow_le_rpow_of_exponent_le (by norm_num) (abs_le.1 hx).2
    _ = √2 := by rw [Real.sqrt_eq_rpow]
    _ ≤ _ := sqrt_two_bounds.2.trans (by norm_num)

theorem two_pow_half_ge {x : ℝ} (hx1 : |x| ≤ 1 / 2) : (7 / 10 : ℝ) ≤ 2 ^ x := by
  have h3 : (2 : ℝ) ^ (-(1 / 2) : ℝ) ≤ 2 ^ x := Real.rpow_le_rpow_of_exponent_le (by norm_num) (by have := abs_le.1 hx1; linarith)
  refine le_trans ?_ h3
  rw [Real.rpow_neg (by norm_num), ← Real.sqrt_eq_rpow, le_inv_comm₀ (by norm_num) (by positivity)]
  exact sqrt_two_bounds.2.trans (by norm_num)

theorem repr_top (hF : F.Wide) : F.Repr (3 / 2 * 2 ^ F.bias) := by
  refine FloatFmt.repr_of_multiple (k := 3) (e := (F.bias : ℤ) - 1) ?_ (by have := hF.bias_ge; omega) ?_
  · rw [zpow_sub₀ (by norm_num), zpow_natCast]; push_cast; ring
  · have h3 : (2 : ℝ) ^ ((F.mant : ℤ) + 1 + (F.bias - 1)) = 2 ^ F.mant * 2 ^ F.bias := by
      rw [show (F.mant : ℤ) + 1 + (F.bias - 1) = ((F.mant + F.bias : ℕ) : ℤ) by push_cast; ring, zpow_natCast, pow_add]
    rw [h3, abs_of_pos (by positivity)]
    refine mul_le_mul_of_nonneg_right ?_ (by positivity)
    have : (2 : ℝ) ^ 20 ≤ 2 ^ F.mant := pow_le_pow_right₀ (by norm_num) hF.mant
    norm_num at this; linarith

/-- Multiplying by a power of two of the normal range. -/
theorem scale_product (hF : F.Wide) {P : ℝ} {r : ℤ} (hP : |P| ≤ 3 / 2) (h1 : 1 - (F.bias : ℤ) ≤ r) (h2 : r ≤ F.bias) :
    F.rne (P * 2 ^ r) = .f (F.rnd (P * 2 ^ r)) ∧ |F.rnd (P * 2 ^ r) - P * 2 ^ r| ≤ F.eps * ((|P| + 1) * 2 ^ r) ∧ |P * 2 ^ r| ≤ 3 / 2 * 2 ^ F.bias := by
  have h2r : (0 : ℝ) < 2 ^ r := by positivity
  have hrb : (2 : ℝ) ^ r ≤ 2 ^ F.bias := by
    rw [← zpow_natCast]; exact zpow_le_zpow_right₀ (by norm_num) h2
  have habs : |P * 2 ^ r| = |P| * 2 ^ r := by rw [abs_mul, abs_of_pos h2r]
  have hle : |P * 2 ^ r| ≤ 3 / 2 * 2 ^ F.bias := by
    rw [habs]; exact mul_le_mul hP hrb h2r.le (by norm_num)
  refine ⟨FloatFmt.rne_le (repr_top hF) hle ?_, ?_, hle⟩
  · rw [pow_succ]; linarith [show (0 : ℝ) < 2 ^ F.bias by positivity]
  · refine (FloatFmt.rnd_err _).trans (mul_le_mul_of_nonneg_left ?_ FloatFmt.eps_pos.le)
    rw [habs, add_mul, one_mul]
    have : F.tiny ≤ (2 : ℝ) ^ r := zpow_le_zpow_right₀ (by norm_num) h1
    linarith

/-- The errors of the polynomial, of its argument and of the product, put together. -/
theorem exp2_assemble {a x E ε p y : ℝ} {r : ℤ} (hε : 0 ≤ ε) (he : ε ≤ 1 / 2 ^ 24) (hE0 : 0 ≤ E) (hE : E ≤ 2 / 100) (hx1 : |x| ≤ 1 / 2)
    (hx2 : |x - (a - r)| ≤ ε / 2) (hp : |p - 2 ^ x| ≤ E) (hy : |y - p * 2 ^ r| ≤ ε * ((|p| + 1) * 2 ^ r)) :
    |y - (2 : ℝ) ^ a| ≤ (√2 * E + 5 * ε) * (2 : ℝ) ^ a := by
  obtain ⟨t, ht⟩ : ∃ t, t = x - (a - r) := ⟨_, rfl⟩
  rw [← ht] at hx2
  have h2r : (0 : ℝ) < 2 ^ r := by positivity
  have h2a : (0 : ℝ) < 2 ^ a := by positivity
  have hx0 : (0 : ℝ) < 2 ^ x := by positivity
  norm_num at he
  have hsplit : (2 : ℝ) ^ x * 2 ^ r = 2 ^ a * 2 ^ t := by
    rw [← Real.rpow_intCast, ← Real.rpow_add (by norm_num), ← Real.rpow_add (by norm_num)]
    congr 1; rw [ht]; ring
  have ht1 : |t| ≤ 1 := by linarith
  have hshift := (two_pow_sub_one ht1).trans (show 7 / 5 * |t| ≤ 7 / 10 * ε by linarith)
  have hsh := abs_le.1 hshift
  have hs := sqrt_two_bounds
  -- `2^r` against `2^a`
  have hr2a : (2 : ℝ) ^ r ≤ √2 * (1 + 7 / 10 * ε) * 2 ^ a := by
    have h3 : (2 : ℝ) ^ r = 2 ^ (-x) * 2 ^ t * 2 ^ a := by
      rw [← Real.rpow_intCast, ← Real.rpow_add (by norm_num), ← Real.rpow_add (by norm_num)]; congr 1; rw [ht]; ring
    have h4 : (2 : ℝ) ^ (-x) ≤ √2 := by
      rw [Real.sqrt_eq_rpow]
      exact Real.rpow_le_rpow_of_exponent_le (by norm_num) (by have := abs_le.1 hx1; linarith)
    rw [h3]
    refine mul_le_mul_of_nonneg_right (mul_le_mul h4 (by linarith) (by positivity) (by positivity)) h2a.le
  have hr3 : (2 : ℝ) ^ r ≤ 142 / 100 * 2 ^ a := by
    refine hr2a.trans (mul_le_mul_of_nonneg_right ?_ h2a.le)
    nlinarith
  have hpa : |p| * 2 ^ r ≤ 103 / 100 * 2 ^ a := by
    have h4 : |p| ≤ 2 ^ x + E := by
      have := abs_le.1 hp
      rw [abs_le]; constructor <;> linarith
    calc |p| * 2 ^ r ≤ (2 ^ x + E) * 2 ^ r := mul_le_mul_of_nonneg_right h4 h2r.le
      _ = 2 ^ a * 2 ^ t + E * 2 ^ r := by rw [add_mul, hsplit]
      _ ≤ 2 ^ a * (1001 / 1000) + 2 / 100 * (142 / 100 * 2 ^ a) := by
          refine add_le_add (mul_le_mul_of_nonneg_left (by linarith) h2a.le) (mul_le_mul hE hr3 h2r.le (by norm_num))
      _ ≤ _ := by linarith
  have h5 : |y - (2 : ℝ) ^ a| ≤ |y - p * 2 ^ r| + |p - 2 ^ x| * 2 ^ r + |(2 : ℝ) ^ t - 1| * 2 ^ a := by
    have e1 : y - (2 : ℝ) ^ a = (y - p * 2 ^ r) + (p - 2 ^ x) * 2 ^ r + (2 ^ t - 1) * 2 ^ a := by
      have : (2 ^ t - 1) * (2 : ℝ) ^ a = 2 ^ x * 2 ^ r - 2 ^ a := by rw [hsplit]; ring
      rw [this]; ring
    rw [e1]
    refine (abs_add_three _ _ _).trans ?_
    rw [abs_mul (p - 2 ^ x), abs_of_pos h2r, abs_mul ((2 : ℝ) ^ t - 1), abs_of_pos h2a]
  have h6 : ε * ((|p| + 1) * 2 ^ r) ≤ ε * (245 / 100 * 2 ^ a) := by
    refine mul_le_mul_of_nonneg_left ?_ hε
    rw [add_mul, one_mul]; linarith
  have h7 : |p - 2 ^ x| * 2 ^ r ≤ (√2 * E + ε) * 2 ^ a := by
    calc |p - 2 ^ x| * 2 ^ r ≤ E * (√2 * (1 + 7 / 10 * ε) * 2 ^ a) := mul_le_mul hp hr2a h2r.le hE0
      _ = (√2 * E + √2 * E * (7 / 10) * ε) * 2 ^ a := by ring
      _ ≤ _ := by
          refine mul_le_mul_of_nonneg_right ?_ h2a.le
          have : √2 * E * (7 / 10) ≤ 1 := by nlinarith
          have := mul_le_mul_of_nonneg_right this hε
          linarith
  have h8 := mul_le_mul_of_nonneg_right hshift h2a.le
  nlinarith [mul_nonneg hε h2a.le]

end

section
variable {ext : BdExt} {fx : FloatExt} {b32 : Bool} {u w : ℝ}

/-- **C83** `exp2` as the program ships it, in float arithmetic: a relative error of a few units in the last place on top of that of the polynomial,
for every float between the smallest and the largest exponent. -/
theorem C83_exp2 (hf : 5 ≤ ext.fuel) (h : IeeeOk fx b32 u w) (hu : u ≤ 1 / 1000) (hw : w ≤ 1 / 1000) : ∃ e, polynomialCode ext fx b32 .exp2 ⟨-5, 1⟩ ⟨5, 1⟩ = .ok e ∧
    ∀ (calls : String → List RV → RV) (g : Name → RV), BitConsts (fmtOf b32) g → LinkedIE (fmtOf b32) calls g Gen.round →
      ∀ a : ℝ, (fmtOf b32).Repr a → 1 - ((fmtOf b32).bias : ℝ) ≤ a → a ≤ (fmtOf b32).bias →
        ∃ y, (Gen.exp2 e.toR).apply (ieeeInterp (fmtOf b32) calls) g [.f a] = .f y ∧
        |y - (2 : ℝ) ^ a| ≤ (√2 * (exp2Err b32 + 2 * u + 12 * w + exp2Ops b32 * (fmtOf b32).eps) + 5 * (fmtOf b32).eps) * (2 : ℝ) ^ a := by
  obtain ⟨e, h1, h2⟩ := exp2_code_ieee (ext := ext) h hu hw hf
  refine ⟨e, h1, fun calls g hg hl a har ha hb => ?_⟩
  have hF := FloatFmt.wide_fmtOf b32
  have hε := FloatFmt.eps_pos (F := fmtOf b32)
  have heps := eps_fmtOf b32
  have hn := h.nonneg
  obtain ⟨r, x, hr, hx, hx1, hx2, hr1, hr2⟩ := round_exponent_ieee hF (bias_lt_mant b32) hl har ha hb
  obtain ⟨P, hP, he⟩ := (h2 calls).1
  have hm : x ∈ Set.Icc (-(1 / 2) : ℝ) (1 / 2) := by simpa using abs_le.1 hx1
  have hrR : ¬ (r : ℝ) < -(fmtOf b32).bias := by
    rw [not_lt]; have : (-((fmtOf b32).bias : ℤ)) ≤ r := by omega
    exact_mod_cast this
  obtain ⟨E, hE⟩ : ∃ E, E = exp2Err b32 + 2 * u + 12 * w + exp2Ops b32 * (fmtOf b32).eps := ⟨_, rfl⟩
  have hE1 : E ≤ 2 / 100 := by
    have h3 : exp2Err b32 ≤ 1 / 1000 := by unfold exp2Err; split <;> norm_num
    have h4 : exp2Ops b32 * (fmtOf b32).eps ≤ 23 * (1 / 2 ^ 24) := mul_le_mul (by unfold exp2Ops; split <;> norm_num) heps hε.le (by norm_num)
    rw [hE]; norm_num at h4; linarith
  have hE0 : 0 ≤ E := by
    have h3 : 0 ≤ exp2Err b32 := by unfold exp2Err; split <;> norm_num
    have h4 : 0 ≤ exp2Ops b32 * (fmtOf b32).eps := mul_nonneg (by unfold exp2Ops; split <;> norm_num) hε.le
    rw [hE]; linarith [hn.1, hn.2]
  have hPx := he x hm
  rw [← hE] at hPx ⊢
  obtain ⟨hp0, hp1⟩ := two_pow_half hx1
  have hPa : |P x| ≤ 3 / 2 := by
    have := abs_le.1 hPx
    rw [abs_le]; constructor <;> linarith
  obtain ⟨k1, k2, -⟩ := scale_product hF hPa hr1 hr2
  refine ⟨(fmtOf b32).rnd (P x * 2 ^ r), ?_, exp2_assemble hε.le heps hE0 hE1 hx1 hx2 hPx k2⟩
  · simp only [Gen.exp2, ofFty_apply, List.map, bindParams]
    simp [hr, hx, hg.exp2_max, hg.exp2_min, not_lt.2 hb, hrR]
    rw [scale_ieee hF (bits_fmtOf b32) hg r hr1 hr2 _ (by simp) (by intro s a b c d; simp [a, b, c])]
    rw [hP _ x (by simp) hm]
    simp [k1]

end

/-! ## `exp_m1` -/

theorem expm1_assemble {x E ε τ p y1 y2 y : ℝ} {r : ℤ} (hε : 0 ≤ ε) (he : ε ≤ 1 / 2 ^ 24) (hE0 : 0 ≤ E) (hE : E ≤ 2 / 100) (hx1 : |x| ≤ 1 / 2) (hτ : τ ≤ 1 / 2)
    (hp : |p - (2 ^ x - 1)| ≤ E) (hy1 : |y1 - p * 2 ^ r| ≤ ε * ((|p| + 1) * 2 ^ r)) (hy2 : |y2 - ((2 : ℝ) ^ r - 1)| ≤ ε * (|(2 : ℝ) ^ r - 1| + τ))
    (hy : |y - (y1 + y2)| ≤ ε * (|y1 + y2| + τ)) :
    |y - ((2 : ℝ) ^ (x + r) - 1)| ≤ √2 * (E + 4 * ε) * (2 : ℝ) ^ (x + r) + 4 * ε := by
  obtain ⟨hx0, hx3⟩ := two_pow_half hx1
  have hR : (0 : ℝ) < 2 ^ r := by positivity
  have hpow : (2 : ℝ) ^ (x + r) = 2 ^ x * 2 ^ r := by rw [Real.rpow_add (by norm_num), Real.rpow_intCast]
  have hrs : (2 : ℝ) ^ r ≤ √2 * (2 : ℝ) ^ (x + r) := by
    have h3 : (2 : ℝ) ^ r = 2 ^ (-x) * 2 ^ (x + r) := by
      rw [← Real.rpow_intCast, ← Real.rpow_add (by norm_num)]; congr 1; ring
    have h4 : (2 : ℝ) ^ (-x) ≤ √2 := by
      rw [Real.sqrt_eq_rpow]
      exact Real.rpow_le_rpow_of_exponent_le (by norm_num) (by have := abs_le.1 hx1; linarith)
    rw [h3]
    exact mul_le_mul_of_nonneg_right h4 (by positivity)
  have hxl := two_pow_half_ge hx1
  rw [hpow] at *
  clear hpow
  generalize (2 : ℝ) ^ r = R at *
  generalize (2 : ℝ) ^ x = X at *
  have hp' := abs_le.1 hp
  have hpa : |p| ≤ 44 / 100 := by rw [abs_le]; constructor <;> linarith
  have hR1 : |R - 1| ≤ R + 1 := by rw [abs_le]; constructor <;> linarith
  norm_num at he
  have a1 : |y1 - p * R| ≤ ε * (144 / 100 * R) := hy1.trans (mul_le_mul_of_nonneg_left (mul_le_mul_of_nonneg_right (by linarith) hR.le) hε)
  have a2 : |y2 - (R - 1)| ≤ ε * (R + 3 / 2) := hy2.trans (mul_le_mul_of_nonneg_left (by linarith) hε)
  have hsum : |y1 + y2| ≤ 145 / 100 * R + 11 / 10 := by
    have e1 : ε * (144 / 100 * R) ≤ 1 / 1000 * R := by nlinarith
    have e2 : ε * (R + 3 / 2) ≤ 1 / 1000 * R + 1 / 1000 := by nlinarith
    have e3 : |p * R| ≤ 44 / 100 * R := by rw [abs_mul, abs_of_pos hR]; exact mul_le_mul_of_nonneg_right hpa hR.le
    have := abs_le.1 a1; have := abs_le.1 a2; have := abs_le.1 e3
    rw [abs_le]; constructor <;> linarith
  have a3 : |y - (y1 + y2)| ≤ ε * (145 / 100 * R + 16 / 10) := hy.trans (mul_le_mul_of_nonneg_left (by linarith) hε)
  have a4 : |(p - (X - 1)) * R| ≤ E * R := by rw [abs_mul, abs_of_pos hR]; exact mul_le_mul_of_nonneg_right hp hR.le
  have e1 : y - (X * R - 1) = (y - (y1 + y2)) + (y1 - p * R) + (y2 - (R - 1)) + (p - (X - 1)) * R := by ring
  rw [e1]
  have b1 := abs_add_le ((y - (y1 + y2)) + (y1 - p * R) + (y2 - (R - 1))) ((p - (X - 1)) * R)
  have b2 := abs_add_three (y - (y1 + y2)) (y1 - p * R) (y2 - (R - 1))
  have b3 : (E + 4 * ε) * R ≤ (E + 4 * ε) * (√2 * (X * R)) := mul_le_mul_of_nonneg_left hrs (by linarith)
  have b4 := mul_nonneg hε hR.le
  nlinarith

/-- The argument `exp_m1` works with. -/
theorem expm1_arg {a c m x sc ε κ τ : ℝ} {r : ℤ} (hε : 0 ≤ ε) (hk0 : 0 ≤ κ) (hτ : τ ≤ 1 / 2 ^ 28) (hm : m = 1 / Real.log 2) (hx : |x - (sc - r)| ≤ ε / 2)
    (hs : |sc - a * c| ≤ ε * (|a * c| + τ)) (hc : |c - m| ≤ κ + 146 / 100 * ε) (hca : |c| ≤ 3 / 2) :
    |(x + r) * Real.log 2 - a| ≤ (κ + 3 * ε) * |a| + ε := by
  have hl2 := Real.log_two_gt_d9
  have hl2' := Real.log_two_lt_d9
  have e1 : (x + r) * Real.log 2 - a = ((x - (sc - r)) + (sc - a * c) + (c - m) * a) * Real.log 2 := by
    rw [hm]; field_simp; ring
  have ha := abs_nonneg a
  have hcm : |(c - m) * a| ≤ (κ + 146 / 100 * ε) * |a| := by
    rw [abs_mul]; exact mul_le_mul_of_nonneg_right hc ha
  have hs2 : |sc - a * c| ≤ ε * (3 / 2 * |a| + 1 / 10) := by
    refine hs.trans (mul_le_mul_of_nonneg_left ?_ hε)
    rw [abs_mul]
    have := mul_le_mul_of_nonneg_left hca ha
    norm_num at hτ; linarith
  rw [e1, abs_mul, abs_of_pos (by linarith : 0 < Real.log 2)]
  have q := abs_add_three (x - (sc - r)) (sc - a * c) ((c - m) * a)
  have q1 : 0 ≤ ε * |a| := mul_nonneg hε ha
  have q2 : |x - (sc - r) + (sc - a * c) + (c - m) * a| ≤ (κ + 3 * ε) * |a| + ε := by
    linarith
  have q3 := mul_le_mul q2 (by linarith : Real.log 2 ≤ 1) (by linarith) ((abs_nonneg _).trans q2)
  linarith

section
variable {ext : BdExt} {fx : FloatExt} {b32 : Bool} {u w : ℝ}

/-- **C83** `exp_m1` as the program ships it, in float arithmetic.  The argument is scaled by a rounded constant, so the result is close to the
value at an argument `a'` near `a`; the rounding of `2^r - 1` and of the sum leaves an absolute error of a few units in the last place of one. -/
theorem C83_exp_m1 (hs : SqrtOk ext) (hf : 20 ≤ ext.fuel) (h : IeeeOk fx b32 u w) (hu : u ≤ 1 / 1000) (hw : w ≤ 1 / 1000) :
    ∃ e, polynomialCode ext fx b32 .exp_m1 ⟨-5, 1⟩ ⟨5, 1⟩ = .ok e ∧
    ∀ (calls : String → List RV → RV) (g : Name → RV), BitConsts (fmtOf b32) g → LinkedIE (fmtOf b32) calls g Gen.round → DeclaredIE ext b32 calls g →
      ∀ a : ℝ, |a| * (3 / 2) ≤ (fmtOf b32).bias - 1 →
        ∃ y a', (Gen.exp_m1 e.toR).apply (ieeeInterp (fmtOf b32) calls) g [.f a] = .f y ∧
        |a' - a| ≤ (constErr b32 + 3 * (fmtOf b32).eps) * |a| + (fmtOf b32).eps ∧
        |y - (Real.exp a' - 1)| ≤ √2 * (exp2Err b32 + 3 * u + 12 * w + expm1Ops b32 * (fmtOf b32).eps + 4 * (fmtOf b32).eps) * Real.exp a' + 4 * (fmtOf b32).eps := by
  obtain ⟨e, h1, h2⟩ := exp_m1_code_ieee (ext := ext) h hu hw (by omega)
  refine ⟨e, h1, fun calls g hg hl hd a ha => ?_⟩
  have hF := FloatFmt.wide_fmtOf b32
  have hε := FloatFmt.eps_pos (F := fmtOf b32)
  have hτ := FloatFmt.tiny_pos (F := fmtOf b32)
  have hτ1 := FloatFmt.tiny_le hF
  have heps := eps_fmtOf b32
  have hn := h.nonneg
  have hκ := constErr_le b32
  have hl2 := Real.log_two_gt_d9
  have hl2' := Real.log_two_lt_d9
  have hlog : Real.logb 2 (Real.exp 1) = 1 / Real.log 2 := by rw [Real.logb, Real.log_exp]
  obtain ⟨m, hm⟩ : ∃ m, m = 1 / Real.log 2 := ⟨_, rfl⟩
  have hm0 : 0 < m := by rw [hm]; positivity
  have hm1 : m ≤ 145 / 100 := by
    rw [hm]; refine (one_div_le_one_div_of_le (by norm_num) (by linarith : (69 / 100 : ℝ) ≤ Real.log 2)).trans (by norm_num)
  obtain ⟨c, hc, -, hc'⟩ := hd.get hs hf (name := "LOG2_E") (m := m) (by simp [constMeaning, hlog, hm]) (by rw [abs_of_pos hm0]; linarith)
  rw [abs_of_pos hm0] at hc'
  have hc2 : |c - m| ≤ constErr b32 + 146 / 100 * (fmtOf b32).eps := by
    refine hc'.trans ?_
    have : (fmtOf b32).eps * (m + 1 / 2 ^ 60) ≤ (fmtOf b32).eps * (146 / 100) := mul_le_mul_of_nonneg_left (by norm_num at *; linarith) hε.le
    linarith
  have hcabs : |c| ≤ 3 / 2 := by
    have h2 := abs_le.1 hc2
    norm_num at heps hκ
    rw [abs_le]; constructor <;> linarith
  have hac : |a * c| ≤ (fmtOf b32).bias - 1 := by
    rw [abs_mul]
    exact (mul_le_mul_of_nonneg_left hcabs (abs_nonneg a)).trans ha
  have hb4 : ((fmtOf b32).bias : ℤ) * 4 ≤ 2 ^ (fmtOf b32).mant := by exact_mod_cast bias_lt_mant b32
  have hb29 := hF.bias_ge.2
  have hrepb : (fmtOf b32).Repr ((fmtOf b32).bias - 1 : ℝ) := by
    have := FloatFmt.repr_int hF.ok (k := (fmtOf b32).bias - 1) (by
      rw [abs_of_nonneg (by omega), pow_succ]; omega)
    push_cast at this; exact this
  have hbfin : ((fmtOf b32).bias - 1 : ℝ) < 2 ^ ((fmtOf b32).bias + 1) := by
    have h3 : (fmtOf b32).bias < 2 ^ ((fmtOf b32).bias + 1) := (Nat.lt_two_pow_self (n := (fmtOf b32).bias)).trans (Nat.pow_lt_pow_right (by norm_num) (by omega))
    have h4 : ((fmtOf b32).bias : ℝ) < 2 ^ ((fmtOf b32).bias + 1) := by exact_mod_cast h3
    linarith
  have hscaled := FloatFmt.rne_le hrepb hac hbfin
  obtain ⟨sc, hsc⟩ : ∃ sc, sc = (fmtOf b32).rnd (a * c) := ⟨_, rfl⟩
  have hsr : (fmtOf b32).Repr sc := hsc ▸ FloatFmt.rnd_repr _
  have hsabs : |sc| ≤ (fmtOf b32).bias - 1 := hsc ▸ FloatFmt.abs_rnd_le hrepb hac
  have hserr : |sc - a * c| ≤ (fmtOf b32).eps * (|a * c| + (fmtOf b32).tiny) := hsc ▸ FloatFmt.rnd_err _
  rw [← hsc] at hscaled
  have hsab := abs_le.1 hsabs
  obtain ⟨r, x, hr, hx, hx1, hx2, hr1, hr2⟩ := round_exponent_ieee hF (bias_lt_mant b32) hl hsr (by linarith) (by linarith)
  obtain ⟨P, hP, he⟩ := (h2 calls).1
  have hmem : x ∈ Set.Icc (-(1 / 2) : ℝ) (1 / 2) := by simpa using abs_le.1 hx1
  obtain ⟨E, hE⟩ : ∃ E, E = exp2Err b32 + 3 * u + 12 * w + expm1Ops b32 * (fmtOf b32).eps := ⟨_, rfl⟩
  have hE1 : E ≤ 2 / 100 := by
    have h3 : exp2Err b32 ≤ 1 / 1000 := by unfold exp2Err; split <;> norm_num
    have h4 : expm1Ops b32 * (fmtOf b32).eps ≤ 35 * (1 / 2 ^ 24) := mul_le_mul (by unfold expm1Ops; split <;> norm_num) heps hε.le (by norm_num)
    rw [hE]; norm_num at h4; linarith
  have hE0 : 0 ≤ E := by
    have h3 : 0 ≤ exp2Err b32 := by unfold exp2Err; split <;> norm_num
    have h4 : 0 ≤ expm1Ops b32 * (fmtOf b32).eps := mul_nonneg (by unfold expm1Ops; split <;> norm_num) hε.le
    rw [hE]; linarith [hn.1, hn.2]
  have hPx := he x hmem
  rw [← hE] at hPx ⊢
  obtain ⟨hp0, hp1⟩ := two_pow_half hx1
  have hxl := two_pow_half_ge hx1
  have hPa : |P x| ≤ 44 / 100 := by
    have := abs_le.1 hPx
    rw [abs_le]; constructor <;> linarith
  obtain ⟨k1, k2, -⟩ := scale_product hF (by linarith : |P x| ≤ 3 / 2) hr1 hr2
  have hR : (0 : ℝ) < 2 ^ r := by positivity
  have hB : (29 : ℝ) ≤ 2 ^ (fmtOf b32).bias := by
    have := (FloatFmt.bias_pow_ge hF).1
    norm_num at this ⊢; linarith
  have hrb : (2 : ℝ) ^ r ≤ 2 ^ (fmtOf b32).bias := by
    rw [← zpow_natCast]; exact zpow_le_zpow_right₀ (by norm_num) hr2
  have k3 : (fmtOf b32).rne ((2 : ℝ) ^ r - 1) = .f ((fmtOf b32).rnd ((2 : ℝ) ^ r - 1)) :=
    FloatFmt.rne_f hF.ok (by rw [abs_le]; constructor <;> linarith)
  have k4 := FloatFmt.rnd_err (F := fmtOf b32) ((2 : ℝ) ^ r - 1)
  obtain ⟨y1, hy1⟩ : ∃ y1, y1 = (fmtOf b32).rnd (P x * 2 ^ r) := ⟨_, rfl⟩
  obtain ⟨y2, hy2⟩ : ∃ y2, y2 = (fmtOf b32).rnd ((2 : ℝ) ^ r - 1) := ⟨_, rfl⟩
  rw [← hy1] at k1 k2
  rw [← hy2] at k3 k4
  have hsum : |y1 + y2| ≤ 3 / 2 * 2 ^ (fmtOf b32).bias := by
    have q1 : |y1 - P x * 2 ^ r| ≤ 1 / 1000 * 2 ^ r := by
      refine k2.trans ?_
      rw [← mul_assoc]
      refine mul_le_mul_of_nonneg_right ?_ hR.le
      calc (fmtOf b32).eps * (|P x| + 1) ≤ 1 / 2 ^ 24 * (44 / 100 + 1) := mul_le_mul heps (by linarith) (by positivity) (by positivity)
        _ ≤ _ := by norm_num
    have q2 : |y2 - ((2 : ℝ) ^ r - 1)| ≤ 1 / 1000 * (2 ^ r + 2) := by
      refine k4.trans (mul_le_mul (heps.trans (by norm_num)) ?_ (by positivity) (by norm_num))
      have : |(2 : ℝ) ^ r - 1| ≤ 2 ^ r + 1 := by rw [abs_le]; constructor <;> linarith
      norm_num at hτ1; linarith
    have q3 : |P x * 2 ^ r| ≤ 44 / 100 * 2 ^ r := by rw [abs_mul, abs_of_pos hR]; exact mul_le_mul_of_nonneg_right hPa hR.le
    have := abs_le.1 q1; have := abs_le.1 q2; have := abs_le.1 q3
    rw [abs_le]; constructor <;> linarith
  have k5 : (fmtOf b32).rne (y1 + y2) = .f ((fmtOf b32).rnd (y1 + y2)) :=
    FloatFmt.rne_le (repr_top hF) hsum (by rw [pow_succ]; linarith)
  have k6 := FloatFmt.rnd_err (F := fmtOf b32) (y1 + y2)
  have hexp : (2 : ℝ) ^ (x + r) = Real.exp ((x + r) * Real.log 2) := by rw [Real.rpow_def_of_pos (by norm_num), mul_comm]
  refine ⟨(fmtOf b32).rnd (y1 + y2), (x + r) * Real.log 2, ?_, ?_, ?_⟩
  · simp only [Gen.exp_m1, ofFty_apply, List.map, bindParams]
    simp [hc, hscaled, hr, hx]
    rw [scale_ieee hF (bits_fmtOf b32) hg r hr1 hr2 _ (by simp) (by intro s a b c d; simp [a, c, d])]
    rw [hP _ x (by simp) hmem, numIE_1 hF]
    simp [k1, k3, k5]
  · exact expm1_arg hε.le (by unfold constErr; positivity) hτ1 hm hx2 hserr hc2 hcabs
  · rw [← hexp]
    exact expm1_assemble hε.le heps hE0 hE1 hx1 (by norm_num at hτ1; linarith) hPx k2 k4 k6

end

/-! ## `log2` -/

section
variable {F : FloatFmt} {calls : String → List RV → RV} {g : Name → RV}

/-- The value of the generated `log2` at a positive normal float: the polynomial of the mantissa less 3/2, which is exact, plus the exponent, rounded. -/
theorem log2_value (hF : F.Wide) (hb4 : F.bias * 4 ≤ 2 ^ F.mant) (hg : BitConsts F g) {p : RExpr} {E f : ℕ} (h0 : 0 < E) (hE : E < 2 ^ F.ebits - 1) (hf : f < 2 ^ F.mant) {r : ℝ}
    (hP : ∀ env : Name → RV, env ["x"] = .f (1 + f / 2 ^ F.mant - 3 / 2) → p.denote (ieeeInterp F calls) env = .f r) {z : RV} (hz : F.rne (r + ((E : ℤ) - F.bias : ℤ)) = z) :
    (Gen.log2 p).apply (ieeeInterp F calls) g [.f ((1 + f / 2 ^ F.mant) * (2 : ℝ) ^ ((E : ℤ) - F.bias))] = z := by
  have hM : (0 : ℝ) < 2 ^ F.mant := by positivity
  obtain ⟨q, hq⟩ : ∃ q : ℝ, q = f / 2 ^ F.mant := ⟨_, rfl⟩
  rw [← hq] at hP ⊢
  have hq0 : 0 ≤ q := by rw [hq]; positivity
  have hq1 : q < 1 := by rw [hq, div_lt_one hM]; exact_mod_cast hf
  have henc : F.encode ((1 + q) * (2 : ℝ) ^ ((E : ℤ) - F.bias)) = E * 2 ^ F.mant + f := hq ▸ FloatFmt.encode_normal h0 hf
  have hpos : 0 < (1 + q) * (2 : ℝ) ^ ((E : ℤ) - F.bias) := by positivity
  have hmin : ¬ (1 + q) * (2 : ℝ) ^ ((E : ℤ) - F.bias) < (2 : ℝ) ^ (1 - (F.bias : ℤ)) := by
    rw [not_lt]
    calc (2 : ℝ) ^ (1 - (F.bias : ℤ)) ≤ (2 : ℝ) ^ ((E : ℤ) - F.bias) := zpow_le_zpow_right₀ (by norm_num) (by omega)
      _ ≤ _ := le_mul_of_one_le_left (by positivity) (by linarith)
  have hb := FloatFmt.two_bias hF.ok
  have hb1 := FloatFmt.bias_pos hF.ok
  obtain ⟨n, hn⟩ : ∃ n, n = E * 2 ^ F.mant + f := ⟨_, rfl⟩
  rw [← hn] at henc
  have hlt : n < 2 ^ (F.width - 1) := by
    have := FloatFmt.lt_of_exp (F := F) (by omega : E < 2 ^ F.ebits) hf
    rw [hn]; simpa [FloatFmt.width] using this
  have hwrap : wrapS F.width (n : ℤ) = n := by
    have hw : (2 : ℤ) ^ F.width = 2 * 2 ^ (F.width - 1) := by
      rw [← pow_succ']; congr 1
    have hltZ : (n : ℤ) < 2 ^ (F.width - 1) := by exact_mod_cast hlt
    unfold wrapS
    rw [Int.emod_eq_of_lt (by positivity) (by rw [hw]; linarith)]; ring
  have hshift : ((n : ℕ) : ℤ) / 2 ^ ((F.mant : ℤ)).toNat = E := by
    rw [Int.toNat_natCast]
    have : n / 2 ^ F.mant = E := hn ▸ FloatFmt.div_of E f hf
    exact_mod_cast this
  have hand : Int.land (n : ℤ) ((2 ^ F.mant - 1 : ℕ) : ℤ) = (f : ℤ) := by
    have : n &&& (2 ^ F.mant - 1) = f := by rw [Nat.and_two_pow_sub_one_eq_mod, hn]; exact FloatFmt.frac_of E f hf
    rw [← this]; rfl
  have hor : Int.lor (f : ℤ) ((F.bias * 2 ^ F.mant : ℕ) : ℤ) = ((F.bias * 2 ^ F.mant + f : ℕ) : ℤ) := by
    have : f ||| F.bias * 2 ^ F.mant = F.bias * 2 ^ F.mant + f := by
      rw [Nat.or_comm, Nat.mul_comm, ← Nat.two_pow_add_eq_or_of_lt hf]
    rw [← this]; rfl
  have hmant : F.decode (F.bias * 2 ^ F.mant + f) = .f (1 + q) := by
    rw [FloatFmt.decode_normal (by omega) (by omega) hf]; simp [hq]
  have hltM : ((F.bias * 2 ^ F.mant + f : ℕ) : ℤ) < 2 ^ F.width := by
    have h1 := FloatFmt.lt_of_exp (F := F) (by omega : F.bias < 2 ^ F.ebits) hf
    have h2 : F.bias * 2 ^ F.mant + f < 2 ^ F.width := lt_of_lt_of_le h1 (Nat.pow_le_pow_right (by norm_num) (by unfold FloatFmt.width; omega))
    exact_mod_cast h2
  have hB := (FloatFmt.bias_pow_ge hF).1
  norm_num at hB
  -- the mantissa less 3/2
  have hx : F.rne (1 + q - 3 / 2) = .f (1 + q - 3 / 2) := by
    refine FloatFmt.rne_repr (FloatFmt.repr_of_multiple (k := 2 * f - 2 ^ F.mant) (e := -((F.mant : ℤ) + 1)) ?_ ?_ ?_) ?_
    · rw [hq, zpow_neg, show (F.mant : ℤ) + 1 = ((F.mant + 1 : ℕ) : ℤ) by push_cast; rfl, zpow_natCast, pow_succ]
      push_cast; field_simp; ring
    · have := hF.bias_ge; omega
    · rw [show (F.mant : ℤ) + 1 + -((F.mant : ℤ) + 1) = 0 by ring, zpow_zero]
      rw [abs_le]; constructor <;> linarith
    · rw [pow_succ, abs_lt]; constructor <;> linarith
  -- the exponent
  have hb4R : (F.bias : ℝ) * 4 ≤ 2 ^ F.mant := by exact_mod_cast hb4
  have hmB : (2 : ℝ) ^ F.mant ≤ 2 ^ F.bias := pow_le_pow_right₀ (by norm_num) (by have := hF.bias_ge; omega)
  obtain ⟨k, hk⟩ : ∃ k : ℤ, k = (E : ℤ) - F.bias := ⟨_, rfl⟩
  have hkz : |k| ≤ F.bias := by rw [hk, abs_le]; constructor <;> omega
  have hkR : |(k : ℝ)| ≤ F.bias := by exact_mod_cast hkz
  have hexpo : F.rne (k : ℝ) = .f k := by
    refine FloatFmt.rne_repr (FloatFmt.repr_int hF.ok ?_) ?_
    · have : (F.bias : ℤ) * 4 ≤ 2 ^ F.mant := by exact_mod_cast hb4
      rw [pow_succ]; omega
    · rw [pow_succ]; linarith
  rw [← hk] at henc hpos hmin hz
  rw [← hk]
  simp only [Gen.log2, ofFty_apply, List.map, bindParams]
  simp only [denoteBlock_letT, denoteBlock_expr, denote_ifElse, denote_block, denote_cond, denote_v, denote_method, denoteArgs_nil, denote_lt,
    denote_sub, denote_add, denote_paren, denote_as, denote_binary, denote_fromBits, envSet_one, numIE_0 hF, numIE_15 hF, ieee_bin, ieee_meth, ieee_cast,
    String.reduceEq, if_true, if_false]
  simp only [methIE_to_bits, henc, castIE_ity_i, hwrap, hg.log2_shift, hg.log2_offset, hg.one_mask, hg.one_bits, hg.min_positive,
    show binIE F .shr (.i (n : ℤ)) (.i (F.mant : ℤ)) = .i (n / 2 ^ ((F.mant : ℤ)).toNat) from rfl,
    show binIE F .bitAnd (.i (n : ℤ)) (.i ((2 ^ F.mant - 1 : ℕ) : ℤ)) = .i (Int.land n ((2 ^ F.mant - 1 : ℕ) : ℤ)) from rfl, hand, hshift,
    show binIE F .bitOr (.i (f : ℤ)) (.i ((F.bias * 2 ^ F.mant : ℕ) : ℤ)) = .i (Int.lor f ((F.bias * 2 ^ F.mant : ℕ) : ℤ)) from rfl, hor,
    show binIE F .sub (.i (E : ℤ)) (.i (F.bias : ℤ)) = .i ((E : ℤ) - F.bias) from rfl, ← hk, castIE_fty_i, hexpo]
  rw [ieee_fromBits F calls _ (by positivity) hltM, Int.toNat_natCast, hmant]
  simp only [binIE_sub, hx, binIE_lt, ieee_test, not_lt.2 hpos.le, hmin, decide_false, Bool.false_eq_true, if_false]
  rw [hP _ (by simp), binIE_add, hz]

/-- **C83** Generated `log2` of a positive normal float, in float arithmetic: the exponent and the mantissa are exact, so rounding only affects the polynomial
and the sum. -/
theorem C83_log2_code (hF : F.Wide) (hb4 : F.bias * 4 ≤ 2 ^ F.mant) (hg : BitConsts F g) {p : RExpr} {ε : ℝ} (hε1 : ε ≤ 1 / 2)
    (hp : Approximates (ieeeInterp F calls) "x" p (fun x => Real.logb 2 (x + 3 / 2)) (Set.Icc (-(1 / 2)) (1 / 2)) ε)
    {E f : ℕ} (h0 : 0 < E) (hE : E < 2 ^ F.ebits - 1) (hf : f < 2 ^ F.mant) :
    ∃ y, (Gen.log2 p).apply (ieeeInterp F calls) g [.f ((1 + f / 2 ^ F.mant) * (2 : ℝ) ^ ((E : ℤ) - F.bias))] = .f y ∧
      |y - Real.logb 2 ((1 + f / 2 ^ F.mant) * (2 : ℝ) ^ ((E : ℤ) - F.bias))| ≤
        ε + F.eps * (|Real.logb 2 ((1 + f / 2 ^ F.mant) * (2 : ℝ) ^ ((E : ℤ) - F.bias))| + 1) := by
  obtain ⟨P, hP, he⟩ := hp
  have hM : (0 : ℝ) < 2 ^ F.mant := by positivity
  have hq0 : (0 : ℝ) ≤ f / 2 ^ F.mant := by positivity
  have hq1 : (f : ℝ) / 2 ^ F.mant < 1 := by rw [div_lt_one hM]; exact_mod_cast hf
  have hm : 1 + (f : ℝ) / 2 ^ F.mant - 3 / 2 ∈ Set.Icc (-(1 / 2) : ℝ) (1 / 2) := ⟨by linarith, by linarith⟩
  have hval := fun z hz => log2_value (calls := calls) hF hb4 hg h0 hE hf (r := P (1 + f / 2 ^ F.mant - 3 / 2)) (fun env henv => hP env _ henv hm) (z := z) hz
  obtain ⟨q, hq⟩ : ∃ q : ℝ, q = f / 2 ^ F.mant := ⟨_, rfl⟩
  rw [← hq] at hval hq0 hq1 hm ⊢
  obtain ⟨k, hk⟩ : ∃ k : ℤ, k = (E : ℤ) - F.bias := ⟨_, rfl⟩
  rw [← hk] at hval ⊢
  have hPx : |P (1 + q - 3 / 2) - Real.logb 2 (1 + q)| ≤ ε := by
    have : |P (1 + q - 3 / 2) - Real.logb 2 (1 + q - 3 / 2 + 3 / 2)| ≤ ε := he _ hm
    rwa [show 1 + q - 3 / 2 + 3 / 2 = 1 + q by ring] at this
  have hl0 : 0 ≤ Real.logb 2 (1 + q) := Real.logb_nonneg (by norm_num) (by linarith)
  have hl1 : Real.logb 2 (1 + q) ≤ 1 := by
    rw [Real.logb_le_iff_le_rpow (by norm_num) (by linarith)]; norm_num; linarith
  have hlog : Real.logb 2 ((1 + q) * (2 : ℝ) ^ k) = Real.logb 2 (1 + q) + k := by
    rw [Real.logb_mul (by positivity) (by positivity), ← Real.rpow_intCast, Real.logb_rpow (by norm_num) (by norm_num)]
  have herr := FloatFmt.rnd_err (F := F) (P (1 + q - 3 / 2) + k)
  refine ⟨F.rnd (P (1 + q - 3 / 2) + k), hval _ (FloatFmt.rne_f hF.ok ?_), ?_⟩
  · have hb := FloatFmt.two_bias hF.ok
    have hkz : |k| ≤ F.bias := by rw [hk, abs_le]; constructor <;> omega
    have hkR : |(k : ℝ)| ≤ F.bias := by exact_mod_cast hkz
    have hb4R : (F.bias : ℝ) * 4 ≤ 2 ^ F.mant := by exact_mod_cast hb4
    have hmB : (2 : ℝ) ^ F.mant ≤ 2 ^ F.bias := pow_le_pow_right₀ (by norm_num) (by have := hF.bias_ge; omega)
    have := abs_le.1 hPx; have := abs_le.1 hkR
    have : (29 : ℝ) ≤ F.bias := by exact_mod_cast hF.bias_ge.2
    rw [abs_le]; constructor <;> linarith
  · rw [hlog]
    have hε := FloatFmt.eps_pos (F := F)
    have hτ := FloatFmt.tiny_le hF
    have e1 : |P (1 + q - 3 / 2) + k| ≤ |Real.logb 2 (1 + q) + k| + ε := by
      have := abs_add_le (Real.logb 2 (1 + q) + k) (P (1 + q - 3 / 2) - Real.logb 2 (1 + q))
      rw [show Real.logb 2 (1 + q) + k + (P (1 + q - 3 / 2) - Real.logb 2 (1 + q)) = P (1 + q - 3 / 2) + k by ring] at this
      linarith
    have e2 : F.eps * (|P (1 + q - 3 / 2) + k| + F.tiny) ≤ F.eps * (|Real.logb 2 (1 + q) + k| + 1) := by
      refine mul_le_mul_of_nonneg_left ?_ hε.le
      norm_num at hτ; linarith
    have e3 := abs_add_le (F.rnd (P (1 + q - 3 / 2) + k) - (P (1 + q - 3 / 2) + k)) (P (1 + q - 3 / 2) - Real.logb 2 (1 + q))
    rw [show F.rnd (P (1 + q - 3 / 2) + k) - (P (1 + q - 3 / 2) + k) + (P (1 + q - 3 / 2) - Real.logb 2 (1 + q)) = F.rnd (P (1 + q - 3 / 2) + k) - (Real.logb 2 (1 + q) + k) by ring] at e3
    linarith

end

section
variable {ext : BdExt} {fx : FloatExt} {b32 : Bool} {u w : ℝ}

/-- **C83** `log2` as the program ships it, in float arithmetic, of every positive normal float. -/
theorem C83_log2 (hf : 5 ≤ ext.fuel) (h : IeeeOk fx b32 u w) (hu : u ≤ 1 / 1000) (hw : w ≤ 1 / 1000) : ∃ e, polynomialCode ext fx b32 .log2 ⟨-5, 1⟩ ⟨5, 1⟩ = .ok e ∧
    ∀ (calls : String → List RV → RV) (g : Name → RV), BitConsts (fmtOf b32) g →
      ∀ E f : ℕ, 0 < E → E < 2 ^ (fmtOf b32).ebits - 1 → f < 2 ^ (fmtOf b32).mant →
        let a : ℝ := (1 + f / 2 ^ (fmtOf b32).mant) * (2 : ℝ) ^ ((E : ℤ) - (fmtOf b32).bias)
        ∃ y, (Gen.log2 e.toR).apply (ieeeInterp (fmtOf b32) calls) g [.f a] = .f y ∧
          |y - Real.logb 2 a| ≤ log2Err b32 + 2 * u + 20 * w + log2Ops b32 * (fmtOf b32).eps + (fmtOf b32).eps * (|Real.logb 2 a| + 1) := by
  obtain ⟨e, h1, h2⟩ := log2_code_ieee (ext := ext) h hu hw hf
  refine ⟨e, h1, fun calls g hg E f h0 hE hf => C83_log2_code (FloatFmt.wide_fmtOf b32) (bias_lt_mant b32) hg ?_ (h2 calls).1 h0 hE hf⟩
  have h3 : log2Err b32 ≤ 1 / 1000 := by unfold log2Err; split <;> norm_num
  have h4 : log2Ops b32 * (fmtOf b32).eps ≤ 24 * (1 / 2 ^ 24) :=
    mul_le_mul (by unfold log2Ops; split <;> norm_num) (eps_fmtOf b32) (FloatFmt.eps_pos).le (by norm_num)
  norm_num at h4; linarith

/-- **C83** Zero and subnormal numbers give minus infinity in float arithmetic as well, negative ones a NaN. -/
theorem C83_log2_small {F : FloatFmt} (hF : F.Wide) {calls : String → List RV → RV} {g : Name → RV} (hg : BitConsts F g) {p : RExpr} {a : ℝ}
    (h1 : a < (2 : ℝ) ^ (1 - (F.bias : ℤ))) :
    (Gen.log2 p).apply (ieeeInterp F calls) g [.f a] = if a < 0 then .nan else .inf true := by
  simp only [Gen.log2, ofFty_apply, List.map, bindParams]
  by_cases h0 : a < 0 <;> simp [h0, hg.min_positive, hg.infinity, h1, numIE_0 hF, hg.nan] <;> rfl

end
/-! ## Examples -/

/-- The bit-pattern constants beside the decimal ones. -/
noncomputable def bitsIE (b32 : Bool) (n : Name) : RV :=
  let F := fmtOf b32
  match n with
  | ["EXP2_ONE"] => .f (F.bias * 2 ^ F.mant)
  | ["EXP2_SCALE"] => .f (2 ^ F.mant)
  | ["EXP2_MIN"] => .f (-F.bias)
  | ["EXP2_MAX"] => .f F.bias
  | ["LOG2_SHIFT"] => .i F.mant
  | ["LOG2_OFFSET"] => .i F.bias
  | ["ONE_BITS"] => .i ((F.bias * 2 ^ F.mant : ℕ) : ℤ)
  | ["ONE_MASK"] => .i ((2 ^ F.mant - 1 : ℕ) : ℤ)
  | ["INFINITY"] => .inf false
  | ["NAN"] => .nan
  | ["MIN_POSITIVE"] => .f ((2 : ℝ) ^ (1 - (F.bias : ℤ)))
  | n => declaredIE b32 n

theorem bitsIE_consts (b32 : Bool) : BitConsts (fmtOf b32) (bitsIE b32) := ⟨rfl, rfl, rfl, rfl, rfl, rfl, rfl, rfl, rfl, rfl, rfl⟩

theorem bitsIE_declared (b32 : Bool) (calls : String → List RV → RV) : DeclaredIE goodExt b32 calls (bitsIE b32) := by
  intro p hp
  obtain ⟨l, h1, h2⟩ := declaredIE_ok b32 calls p hp
  refine ⟨l, h1, ?_⟩
  have h3 : bitsIE b32 [p.1] = declaredIE b32 [p.1] := by
    unfold constSource at hp
    fin_cases hp <;> rfl
  rw [h3, h2]
  rfl

theorem eps_f64 : (fmtOf false).eps = 1 / 2 ^ 53 := by
  rw [FloatFmt.eps, show -((fmtOf false).mant : ℤ) - 1 = -53 by decide]; norm_num

/-- At 64 bits, `2^10.5` is computed within one part in `2⁴⁷`. -/
example : ∃ e, polynomialCode goodExt wideFx false .exp2 ⟨-5, 1⟩ ⟨5, 1⟩ = .ok e ∧
    ∃ y, (Gen.exp2 e.toR).apply (ieeeInterp .f64 (roundIE .f64 (bitsIE false))) (bitsIE false) [.f (21 / 2)] = .f y ∧
      |y - (2 : ℝ) ^ (21 / 2 : ℝ)| ≤ 1 / 2 ^ 47 * (2 : ℝ) ^ (21 / 2 : ℝ) := by
  have htiny : (fmtOf false).tiny ≤ 1 := (FloatFmt.tiny_fmtOf false).trans (by norm_num)
  have hp := FloatFmt.tiny_pos (F := fmtOf false)
  have hs := sqrt_two_bounds
  obtain ⟨e, h1, h2⟩ := C83_exp2 (b32 := false) (ext := goodExt) (by decide) (wideFx_ieee false) (by rw [eps_f64]; norm_num) (by rw [eps_f64]; norm_num at *; linarith)
  refine ⟨e, h1, ?_⟩
  obtain ⟨y, hy, he⟩ := h2 _ _ (bitsIE_consts false) (roundIE_linked .f64 _) (21 / 2)
    (by have := FloatFmt.repr_eighths (FloatFmt.wide_fmtOf false) 84 (by norm_num); norm_num at this; exact this)
    (by rw [show (fmtOf false).bias = 1023 by decide]; norm_num) (by rw [show (fmtOf false).bias = 1023 by decide]; norm_num)
  refine ⟨y, hy, he.trans (mul_le_mul_of_nonneg_right ?_ (by positivity))⟩
  rw [eps_f64]
  simp only [exp2Err, exp2Ops, Bool.false_eq_true, if_false]
  norm_num at *; nlinarith

/-- At 64 bits, `exp_m1` of one. -/
example : ∃ e, polynomialCode goodExt wideFx false .exp_m1 ⟨-5, 1⟩ ⟨5, 1⟩ = .ok e ∧
    ∃ y a', (Gen.exp_m1 e.toR).apply (ieeeInterp .f64 (roundIE .f64 (bitsIE false))) (bitsIE false) [.f 1] = .f y ∧
      |a' - 1| ≤ 1 / 2 ^ 50 ∧ |y - (Real.exp a' - 1)| ≤ 1 / 2 ^ 45 * (Real.exp a' + 1) := by
  have htiny : (fmtOf false).tiny ≤ 1 := (FloatFmt.tiny_fmtOf false).trans (by norm_num)
  have hp := FloatFmt.tiny_pos (F := fmtOf false)
  have hs := sqrt_two_bounds
  obtain ⟨e, h1, h2⟩ := C83_exp_m1 (b32 := false) goodExt_ok (by decide) (wideFx_ieee false) (by rw [eps_f64]; norm_num) (by rw [eps_f64]; norm_num at *; linarith)
  refine ⟨e, h1, ?_⟩
  obtain ⟨y, a', hy, ha, he⟩ := h2 _ _ (bitsIE_consts false) (roundIE_linked .f64 _) (bitsIE_declared _ _) 1
    (by rw [show (fmtOf false).bias = 1023 by decide]; norm_num)
  refine ⟨y, a', hy, ha.trans ?_, he.trans ?_⟩
  · rw [eps_f64]
    simp only [constErr, configDigits, Bool.false_eq_true, if_false]
    norm_num
  · have hx := Real.exp_pos a'
    rw [eps_f64, mul_add (1 / 2 ^ 45) _ (1 : ℝ)]
    refine add_le_add (mul_le_mul_of_nonneg_right ?_ hx.le) ?_
    swap; norm_num
    simp only [exp2Err, expm1Ops, Bool.false_eq_true, if_false]
    norm_num at *; nlinarith

/-- At 64 bits, `log2 12`. -/
example : ∃ e, polynomialCode goodExt wideFx false .log2 ⟨-5, 1⟩ ⟨5, 1⟩ = .ok e ∧
    ∃ y, (Gen.log2 e.toR).apply (ieeeInterp .f64 (roundIE .f64 (bitsIE false))) (bitsIE false) [.f 12] = .f y ∧
      |y - Real.logb 2 12| ≤ 1 / 10 ^ 9 := by
  have htiny : (fmtOf false).tiny ≤ 1 := (FloatFmt.tiny_fmtOf false).trans (by norm_num)
  have hp := FloatFmt.tiny_pos (F := fmtOf false)
  obtain ⟨e, h1, h2⟩ := C83_log2 (b32 := false) (ext := goodExt) (by decide) (wideFx_ieee false) (by rw [eps_f64]; norm_num) (by rw [eps_f64]; norm_num at *; linarith)
  refine ⟨e, h1, ?_⟩
  have h12 : (1 + ((2 ^ 51 : ℕ) : ℝ) / 2 ^ (fmtOf false).mant) * (2 : ℝ) ^ (((1026 : ℕ) : ℤ) - (fmtOf false).bias) = 12 := by
    rw [show (fmtOf false).mant = 52 by decide, show (((1026 : ℕ) : ℤ) - (fmtOf false).bias) = 3 by decide]; norm_num
  obtain ⟨y, hy, he⟩ := h2 (roundIE .f64 (bitsIE false)) _ (bitsIE_consts false) 1026 (2 ^ 51) (by norm_num) (by decide) (by decide)
  rw [h12] at hy he
  refine ⟨y, hy, he.trans ?_⟩
  have hl : |Real.logb 2 12| ≤ 4 := by
    rw [abs_of_nonneg (Real.logb_nonneg (by norm_num) (by norm_num)), Real.logb_le_iff_le_rpow (by norm_num) (by norm_num)]; norm_num
  rw [eps_f64]
  simp only [log2Err, log2Ops, Bool.false_eq_true, if_false]
  norm_num at *; linarith

end Verif

import Verif.Props.IeeeSqrtZero

/-!
# C74: `recip` of zero in float arithmetic

The estimate for zero is the largest power of two.  The first step doubles it, which overflows, and the second one multiplies zero by infinity: the result is NaN.
-/

namespace Verif
open RExpr
section
variable {b32 : Bool} {calls : String → List RV → RV} {g : Name → RV}

/-- The estimate for zero. -/
theorem recip_approx_zero (hg : g ["EXP2_ONE"] = .f ((fmtOf b32).bias * 2 ^ (fmtOf b32).mant)) :
    Gen.recip_approx.apply (ieeeInterp (fmtOf b32) calls) g [.f 0] = .f (2 ^ (fmtOf b32).bias) := by
  have hF := FloatFmt.wide_fmtOf b32
  have h8 := abs_le.1 (rnd_08 b32)
  have hε := FloatFmt.eps_pos (F := fmtOf b32)
  have hε' := eps_fmtOf b32
  norm_num at hε'
  have h1 : (fmtOf b32).rne ((fmtOf b32).bias * 2 ^ (fmtOf b32).mant * 2) = .f ((2 * (fmtOf b32).bias * 2 ^ (fmtOf b32).mant : ℕ) : ℝ) := by
    rw [show ((fmtOf b32).bias * 2 ^ (fmtOf b32).mant * 2 : ℝ) = ((2 * (fmtOf b32).bias * 2 ^ (fmtOf b32).mant : ℕ) : ℝ) by push_cast; ring]
    exact rne_short b32 (fmtOf b32).bias ((fmtOf b32).mant + 1) (by rw [pow_succ]; push_cast; ring) (by cases b32 <;> decide) (by cases b32 <;> decide)
  have h2 : (fmtOf b32).rne (0 * -1 + ((2 * (fmtOf b32).bias * 2 ^ (fmtOf b32).mant : ℕ) : ℝ)) = .f ((2 * (fmtOf b32).bias * 2 ^ (fmtOf b32).mant : ℕ) : ℝ) := by
    rw [zero_mul, zero_add]
    exact rne_short b32 (fmtOf b32).bias ((fmtOf b32).mant + 1) (by rw [pow_succ]; push_cast; ring) (by cases b32 <;> decide) (by cases b32 <;> decide)
  have h3 : (fmtOf b32).decode (2 * (fmtOf b32).bias * 2 ^ (fmtOf b32).mant) = .f (2 ^ (fmtOf b32).bias) := by
    have := FloatFmt.decode_normal (F := fmtOf b32) (E := 2 * (fmtOf b32).bias) (f := 0) (by cases b32 <;> decide) (by cases b32 <;> decide) (by positivity)
    rw [add_zero] at this
    rw [this]
    congr 1
    rw [show ((2 * (fmtOf b32).bias : ℕ) : ℤ) - (fmtOf b32).bias = ((fmtOf b32).bias : ℤ) by push_cast; ring, zpow_natCast]; simp
  have h4 : 2 * (fmtOf b32).bias * 2 ^ (fmtOf b32).mant < 2 ^ (fmtOf b32).width := by cases b32 <;> decide
  have h5 : (fmtOf b32).rne (2 ^ (fmtOf b32).bias - (fmtOf b32).rnd (8 / 100)) = .f (2 ^ (fmtOf b32).bias) := by
    have hp : (2 : ℝ) ^ (fmtOf b32).bias = 2 * 2 ^ ((fmtOf b32).bias - 1) := by
      rw [← pow_succ']; congr 1; cases b32 <;> rfl
    have hq : (2 : ℝ) ^ 60 ≤ 2 ^ ((fmtOf b32).bias - 1) := pow_le_pow_right₀ (by norm_num) (by cases b32 <;> decide)
    have hr : (fmtOf b32).rnd (2 ^ (fmtOf b32).bias - (fmtOf b32).rnd (8 / 100)) = 2 ^ (fmtOf b32).bias := by
      refine FloatFmt.rnd_eq (E := ((fmtOf b32).bias - 1 : ℕ)) (repr_two_pow b32 _) ?_ (by cases b32 <;> decide) ?_ ?_
      · rw [zpow_natCast, hp]; linarith [(by positivity : (0 : ℝ) < 2 ^ ((fmtOf b32).bias - 1))]
      · have h1 : (1 : ℝ) ≤ (2 : ℝ) ^ (((fmtOf b32).bias - 1 : ℕ) - ((fmtOf b32).mant : ℤ)) :=
          one_le_zpow₀ (by norm_num) (by cases b32 <;> decide)
        rw [abs_lt]; constructor <;> linarith
      · rw [zpow_natCast, hp]; norm_num at hq; linarith
    rw [FloatFmt.rne_f hF.ok (by
      rw [abs_of_nonneg (by norm_num at hq; linarith)]
      linarith), hr]
  have hen : (fmtOf b32).encode 0 = 0 := by
    have := FloatFmt.encode_units (F := fmtOf b32) hF.ok (n := 0) (by cases b32 <;> decide)
    simpa [FloatFmt.units] using this
  have hd : (fromBits (as (.paren (.paren (.method (.paren (as (.method (.method (v "x") "abs" []) "to_bits" []) "fty")) "mul_add" [-num "1.0", v "EXP2_ONE" * num "2.0"]))) "uty")).denote
      (ieeeInterp (fmtOf b32) calls) (envSet g "x" (.f 0)) = .f (2 ^ (fmtOf b32).bias) := by
    rw [denote_fromBits, denote_as]
    simp only [denote_paren, denote_method, denote_as, denote_mul, denote_neg, denoteArgs_cons, denoteArgs_nil, denote_v, numIE_1 hF, numIE_2, ieee_cast, ieee_meth, ieee_bin, ieee_un,
      show methIE (fmtOf b32) "abs" (.f 0) [] = .f 0 by simp, show methIE (fmtOf b32) "to_bits" (.f 0) [] = .i 0 by simp [hen], castIE_fty_i, Int.cast_zero, rne_zero,
      show envSet g "x" (.f 0) ["x"] = .f 0 by simp, show envSet g "x" (.f 0) ["EXP2_ONE"] = g ["EXP2_ONE"] by simp, hg, binIE_mul, h1, show unRV .neg (.f 1) = .f (-1) from rfl,
      methIE_mul_add, h2, castIE_uty]
    have hc := truncR_int ((2 * (fmtOf b32).bias * 2 ^ (fmtOf b32).mant : ℕ) : ℤ)
    rw [Int.cast_natCast] at hc
    rw [hc, clampZ_self (by positivity) (by have : ((2 * (fmtOf b32).bias * 2 ^ (fmtOf b32).mant : ℕ) : ℤ) < 2 ^ (fmtOf b32).width := by exact_mod_cast h4
                                            omega), ieee_fromBits _ calls _ (by positivity) (by exact_mod_cast h4), Int.toNat_natCast, h3]
  simp only [Gen.recip_approx, Gen.powerScale, ofFty_apply, List.map, bindParams, denoteBlock_letT]
  rw [hd]
  simp [numIE_08, h5]

/-- **C74** In float arithmetic `recip(0)` is NaN; it should be infinite. -/
theorem C74_recip_zero_wrong (hg : g ["EXP2_ONE"] = .f ((fmtOf b32).bias * 2 ^ (fmtOf b32).mant)) (hc : LinkedIE (fmtOf b32) calls g Gen.recip_approx) :
    Gen.recip.apply (ieeeInterp (fmtOf b32) calls) g [.f 0] = .nan := by
  have h2 : (fmtOf b32).rne (2 - 0) = .f 2 := by
    rw [sub_zero]; exact rne_short b32 1 1 (by norm_num) (by cases b32 <;> decide) (by cases b32 <;> decide)
  have h3 : (fmtOf b32).rne (2 ^ (fmtOf b32).bias * 2) = .inf false := rne_over (by rw [pow_succ])
  have s1 : binIE (fmtOf b32) .mul (.f (2 ^ (fmtOf b32).bias)) (binIE (fmtOf b32) .sub (.f 2) (binIE (fmtOf b32) .mul (.f 0) (.f (2 ^ (fmtOf b32).bias)))) = .inf false := by
    rw [binIE_mul, zero_mul, rne_zero, binIE_sub, h2, binIE_mul, h3]
  have s2 : binIE (fmtOf b32) .mul (.inf false) (binIE (fmtOf b32) .sub (.f 2) (binIE (fmtOf b32) .mul (.f 0) (.inf false))) = .nan := by
    rw [mulIE_zero_inf]; simp
  simp only [recip_run hc, recip_approx_zero hg, s1, s2]
  simp

/-- Such a library exists. -/
example (b32 : Bool) : Gen.recip.apply (ieeeInterp (fmtOf b32) (seedCallsIE b32)) (seedEnvIE b32) [.f 0] = .nan :=
  C74_recip_zero_wrong (seedEnvIE_bits b32) (seedCallsIE_recip b32)

end
end Verif

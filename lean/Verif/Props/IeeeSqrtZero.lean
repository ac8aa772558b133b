import Verif.Props.IeeeSpecialExamples

/-!
# C74: `sqrt` of zero and small numbers in float arithmetic

The estimate for zero is about `-0.08`, and the single step halves it: generated `sqrt(0)` is about `-0.04`.  For the same reason `sqrt` is negative at all normal
floats up to `1/256`.
-/

namespace Verif
open RExpr
section
variable {b32 : Bool} {calls : String → List RV → RV} {g : Name → RV}

theorem rne_near {x : ℝ} (h : |x| ≤ 1 / 2) : ∃ y, (fmtOf b32).rne x = .f y ∧ |y - x| ≤ 1 / 10 ^ 6 := by
  refine ⟨(fmtOf b32).rnd x, rne_small (h.trans (by norm_num)), (FloatFmt.rnd_err (F := fmtOf b32) x).trans ?_⟩
  have hε := FloatFmt.eps_pos (F := fmtOf b32)
  have heps := eps_fmtOf b32
  norm_num at heps
  have ht : (fmtOf b32).tiny ≤ 1 / 2 := (FloatFmt.tiny_le (FloatFmt.wide_fmtOf b32)).trans (by norm_num)
  have : (fmtOf b32).eps * (|x| + (fmtOf b32).tiny) ≤ (fmtOf b32).eps * 1 := mul_le_mul_of_nonneg_left (by linarith) hε.le
  norm_num; linarith

/-- The estimate for zero. -/
theorem sqrt_approx_zero (hg : g ["EXP2_ONE"] = .f ((fmtOf b32).bias * 2 ^ (fmtOf b32).mant)) :
    ∃ r, Gen.sqrt_approx.apply (ieeeInterp (fmtOf b32) calls) g [.f 0] = .f r ∧ |r + 8 / 100| ≤ 1 / 10 ^ 5 := by
  have hF := FloatFmt.wide_fmtOf b32
  have h1 : (fmtOf b32).rne ((fmtOf b32).bias * 2 ^ (fmtOf b32).mant * (1 / 2)) = .f (((fmtOf b32).bias * 2 ^ ((fmtOf b32).mant - 1) : ℕ) : ℝ) := by
    have : ((fmtOf b32).bias * 2 ^ (fmtOf b32).mant * (1 / 2) : ℝ) = (((fmtOf b32).bias * 2 ^ ((fmtOf b32).mant - 1) : ℕ) : ℝ) := by
      have : (2 : ℝ) ^ (fmtOf b32).mant = 2 * 2 ^ ((fmtOf b32).mant - 1) := by rw [← pow_succ']; congr 1; cases b32 <;> rfl
      rw [this]; push_cast; ring
    rw [this]
    exact rne_short b32 (fmtOf b32).bias ((fmtOf b32).mant - 1) (by push_cast; ring) (by cases b32 <;> decide) (by cases b32 <;> decide)
  have h2 : (fmtOf b32).rne (0 * (1 / 2) + (((fmtOf b32).bias * 2 ^ ((fmtOf b32).mant - 1) : ℕ) : ℝ)) = .f (((fmtOf b32).bias * 2 ^ ((fmtOf b32).mant - 1) : ℕ) : ℝ) := by
    rw [zero_mul, zero_add]
    exact rne_short b32 (fmtOf b32).bias ((fmtOf b32).mant - 1) (by push_cast; ring) (by cases b32 <;> decide) (by cases b32 <;> decide)
  have h3 : ∃ z : ℝ, (fmtOf b32).decode ((fmtOf b32).bias * 2 ^ ((fmtOf b32).mant - 1)) = .f z ∧ 0 ≤ z ∧ z ≤ 1 / 10 ^ 6 := by
    have he : (fmtOf b32).bias * 2 ^ ((fmtOf b32).mant - 1) = ((fmtOf b32).bias - 1) / 2 * 2 ^ (fmtOf b32).mant + 2 ^ ((fmtOf b32).mant - 1) := by cases b32 <;> decide
    refine ⟨_, (by rw [he]; exact FloatFmt.decode_normal (by cases b32 <;> decide) (by cases b32 <;> decide) (by cases b32 <;> decide)), by positivity, ?_⟩
    have a1 : ((2 ^ ((fmtOf b32).mant - 1) : ℕ) : ℝ) / 2 ^ (fmtOf b32).mant ≤ 1 := div_le_one_of_le₀ (by push_cast; exact pow_le_pow_right₀ (by norm_num) (by omega)) (by positivity)
    have a2 : (2 : ℝ) ^ (((((fmtOf b32).bias - 1) / 2 : ℕ) : ℤ) - (fmtOf b32).bias) ≤ 2 ^ (-30 : ℤ) := zpow_le_zpow_right₀ (by norm_num) (by cases b32 <;> decide)
    have a3 := mul_le_mul (add_le_add_right a1 1) a2 (by positivity) (by norm_num)
    refine a3.trans ?_
    norm_num
  obtain ⟨z, h3, hz0, hz1⟩ := h3
  have h4 : (fmtOf b32).bias * 2 ^ ((fmtOf b32).mant - 1) < 2 ^ (fmtOf b32).width := by cases b32 <;> decide
  have hen : (fmtOf b32).encode 0 = 0 := by
    have := FloatFmt.encode_units (F := fmtOf b32) hF.ok (n := 0) (by cases b32 <;> decide)
    simpa [FloatFmt.units] using this
  have hd : (fromBits (as (.paren (.paren (.method (.paren (as (.method (.method (v "x") "abs" []) "to_bits" []) "fty")) "mul_add" [num "0.5", v "EXP2_ONE" * num "0.5"]))) "uty")).denote
      (ieeeInterp (fmtOf b32) calls) (envSet g "x" (.f 0)) = .f z := by
    rw [denote_fromBits, denote_as]
    simp only [denote_paren, denote_method, denote_as, denote_mul, denoteArgs_cons, denoteArgs_nil, denote_v, numIE_half hF, ieee_cast, ieee_meth, ieee_bin,
      show methIE (fmtOf b32) "abs" (.f 0) [] = .f 0 by simp, show methIE (fmtOf b32) "to_bits" (.f 0) [] = .i 0 by simp [hen], castIE_fty_i, Int.cast_zero, rne_zero,
      show envSet g "x" (.f 0) ["x"] = .f 0 by simp, show envSet g "x" (.f 0) ["EXP2_ONE"] = g ["EXP2_ONE"] by simp, hg, binIE_mul, h1, methIE_mul_add, h2, castIE_uty]
    have hc := truncR_int (((fmtOf b32).bias * 2 ^ ((fmtOf b32).mant - 1) : ℕ) : ℤ)
    rw [Int.cast_natCast] at hc
    rw [hc, clampZ_self (by positivity) (by have : (((fmtOf b32).bias * 2 ^ ((fmtOf b32).mant - 1) : ℕ) : ℤ) < 2 ^ (fmtOf b32).width := by exact_mod_cast h4
                                            omega), ieee_fromBits _ calls _ (by positivity) (by exact_mod_cast h4), Int.toNat_natCast, h3]
  have h8 := abs_le.1 (rnd_08 b32)
  have hε := eps_fmtOf b32
  norm_num at hε h8 hz1
  obtain ⟨r, k1, k2⟩ := rne_near (b32 := b32) (x := z - (fmtOf b32).rnd (8 / 100)) (by norm_num; rw [abs_le]; constructor <;> linarith)
  refine ⟨r, ?_, ?_⟩
  · simp only [Gen.sqrt_approx, Gen.powerScale, ofFty_apply, List.map, bindParams, denoteBlock_letT]
    rw [hd]
    simp [numIE_08, k1]
  · norm_num at k2 ⊢
    rw [abs_le] at k2 ⊢
    constructor <;> linarith

/-- **C74** In float arithmetic `sqrt(0)` is negative, about `-0.04`. -/
theorem C74_sqrt_zero_wrong (hg : g ["EXP2_ONE"] = .f ((fmtOf b32).bias * 2 ^ (fmtOf b32).mant)) (hc : LinkedIE (fmtOf b32) calls g Gen.sqrt_approx) :
    ∃ y, Gen.sqrt.apply (ieeeInterp (fmtOf b32) calls) g [.f 0] = .f y ∧ |y + 4 / 100| ≤ 1 / 1000 := by
  obtain ⟨r, h, hr⟩ := sqrt_approx_zero (calls := calls) hg
  norm_num at hr
  rw [abs_le] at hr
  obtain ⟨r1, r2⟩ := hr
  obtain ⟨p, p1, p2⟩ := rne_near (b32 := b32) (x := r * r) (by rw [abs_of_nonneg (mul_self_nonneg r)]; nlinarith)
  norm_num at p2
  rw [abs_le] at p2
  have q1 : 639 / 100000 ≤ p := by nlinarith
  have q2 : p ≤ 641 / 100000 := by nlinarith
  obtain ⟨n, n1, n2⟩ := rne_near (b32 := b32) (x := 0 - p) (by rw [abs_le]; constructor <;> linarith)
  obtain ⟨d, d1, d2⟩ := rne_near (b32 := b32) (x := 2 * r) (by rw [abs_le]; constructor <;> linarith)
  norm_num at n2 d2
  rw [abs_le] at n2 d2
  have hd0 : d < 0 := by linarith
  have e1 : n / d ≤ 402 / 10000 := by rw [div_le_iff_of_neg hd0]; linarith
  have e2 : 398 / 10000 ≤ n / d := by rw [le_div_iff_of_neg hd0]; linarith
  obtain ⟨t, t1, t2⟩ := rne_near (b32 := b32) (x := n / d) (by rw [abs_le]; constructor <;> linarith)
  norm_num at t2
  rw [abs_le] at t2
  obtain ⟨y, y1, y2⟩ := rne_near (b32 := b32) (x := r + t) (by rw [abs_le]; constructor <;> linarith)
  norm_num at y2
  rw [abs_le] at y2
  refine ⟨y, ?_, ?_⟩
  · simp only [sqrt_run hc, h, binIE_mul, p1, binIE_sub, n1, d1]
    rw [show binIE (fmtOf b32) .div (.f n) (.f d) = .f t by
      show (if d = 0 then _ else (fmtOf b32).rne (n / d)) = _
      rw [if_neg hd0.ne, t1], binIE_add, y1]
  · rw [abs_le]; constructor <;> linarith

/-- **C74** In float arithmetic `sqrt` is negative at every normal float up to `1/256`. -/
theorem C74_sqrt_small_wrong (hg : g ["EXP2_ONE"] = .f ((fmtOf b32).bias * 2 ^ (fmtOf b32).mant)) (hc : LinkedIE (fmtOf b32) calls g Gen.sqrt_approx) {x : ℝ}
    (hx : (fmtOf b32).Repr x) (h0 : (fmtOf b32).tiny ≤ x) (h1 : x ≤ 1 / 256) :
    ∃ y, Gen.sqrt.apply (ieeeInterp (fmtOf b32) calls) g [.f x] = .f y ∧ y < 0 := by
  have hx0 : 0 < x := FloatFmt.tiny_pos.trans_le h0
  have hq : √x ≤ 1 / 16 := Real.sqrt_le_iff.2 ⟨by norm_num, by linarith⟩
  have hq0 := Real.sqrt_nonneg x
  obtain ⟨z, h, z1, z2⟩ := sqrt_approx_ieee (calls := calls) hg hx h0 (lt_of_le_of_lt h1 (lt_of_lt_of_le (by norm_num) (one_le_pow₀ (by norm_num : (1 : ℝ) ≤ 2))))
  have h8 := abs_le.1 (rnd_08 b32)
  have hε := eps_fmtOf b32
  norm_num at hε h8
  obtain ⟨r, k1, k2⟩ := rne_near (b32 := b32) (x := z - (fmtOf b32).rnd (8 / 100)) (by norm_num; rw [abs_le]; constructor <;> linarith)
  rw [k1] at h
  norm_num at k2
  rw [abs_le] at k2
  have r1 : r ≤ -(13 / 1000) := by linarith
  have r2 : -(81 / 1000) ≤ r := by linarith
  obtain ⟨p, p1, p2⟩ := rne_near (b32 := b32) (x := r * r) (by rw [abs_of_nonneg (mul_self_nonneg r)]; nlinarith)
  norm_num at p2
  rw [abs_le] at p2
  have q1 : 0 ≤ p := by nlinarith
  have q2 : p ≤ 7 / 1000 := by nlinarith
  obtain ⟨n, n1, n2⟩ := rne_near (b32 := b32) (x := x - p) (by rw [abs_le]; constructor <;> linarith)
  obtain ⟨d, d1, d2⟩ := rne_near (b32 := b32) (x := 2 * r) (by rw [abs_le]; constructor <;> linarith)
  norm_num at n2 d2
  rw [abs_le] at n2 d2
  have hd0 : d < 0 := by linarith
  have e1 : n / d ≤ -r - 1 / 10 ^ 5 := by
    rw [div_le_iff_of_neg hd0]
    have a1 : (-r - 1 / 10 ^ 5) * d ≤ (-r - 1 / 10 ^ 5) * (2 * r + 1 / 10 ^ 6) := mul_le_mul_of_nonneg_left (by norm_num; linarith) (by norm_num; linarith)
    refine a1.trans ?_
    have a2 : 169 / 1000000 ≤ r * r := by nlinarith
    norm_num at a2 ⊢
    nlinarith
  have e2 : -(1 / 4) ≤ n / d := by rw [le_div_iff_of_neg hd0]; linarith
  norm_num at e1
  obtain ⟨t, t1, t2⟩ := rne_near (b32 := b32) (x := n / d) (by rw [abs_le]; constructor <;> linarith)
  norm_num at t2
  rw [abs_le] at t2
  obtain ⟨y, y1, y2⟩ := rne_near (b32 := b32) (x := r + t) (by rw [abs_le]; constructor <;> linarith)
  norm_num at y2
  rw [abs_le] at y2
  refine ⟨y, ?_, by linarith⟩
  simp only [sqrt_run hc, h, binIE_mul, p1, binIE_sub, n1, d1]
  rw [show binIE (fmtOf b32) .div (.f n) (.f d) = .f t by
    show (if d = 0 then _ else (fmtOf b32).rne (n / d)) = _
    rw [if_neg hd0.ne, t1], binIE_add, y1]

/-- `sqrt(2^-10)`. -/
example (b32 : Bool) : ∃ y, Gen.sqrt.apply (ieeeInterp (fmtOf b32) (seedCallsIE b32)) (seedEnvIE b32) [.f ((2 : ℝ) ^ (-10 : ℤ))] = .f y ∧ y < 0 := by
  refine C74_sqrt_small_wrong (seedEnvIE_bits b32) (seedCallsIE_sqrt b32) ⟨1, -10, by norm_num, by rw [abs_one]; exact one_le_pow₀ (by norm_num), by cases b32 <;> decide⟩ ?_ (by norm_num)
  exact zpow_le_zpow_right₀ (by norm_num) (by cases b32 <;> decide)

/-- Such a library exists. -/
example (b32 : Bool) : ∃ y, Gen.sqrt.apply (ieeeInterp (fmtOf b32) (seedCallsIE b32)) (seedEnvIE b32) [.f 0] = .f y ∧ y < 0 := by
  obtain ⟨y, h1, h2⟩ := C74_sqrt_zero_wrong (seedEnvIE_bits b32) (seedCallsIE_sqrt b32)
  exact ⟨y, h1, by have := (abs_le.1 h2).2; linarith⟩

end
end Verif

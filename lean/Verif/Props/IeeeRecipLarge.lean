import Verif.Props.IeeeRecipZero
import Verif.Props.IeeeParity

/-!
# C74: `recip` of large numbers in float arithmetic

From 64 on the estimate of `recip` is about `0.07` whatever the argument, which is more than twice the reciprocal.  The first step makes it negative and the other
two keep the sign.
-/

namespace Verif
open RExpr
section
variable {b32 : Bool} {calls : String → List RV → RV} {g : Name → RV}

/-- The estimate for large numbers. -/
theorem recip_approx_large (hg : g ["EXP2_ONE"] = .f ((fmtOf b32).bias * 2 ^ (fmtOf b32).mant)) {x : ℝ} (hx : (fmtOf b32).Repr x) (h0 : 64 ≤ x)
    (h1 : x ≤ 2 ^ ((fmtOf b32).bias - 2)) :
    ∃ r, Gen.recip_approx.apply (ieeeInterp (fmtOf b32) calls) g [.f x] = .f r ∧ 62 / 1000 ≤ r ∧ r ≤ 81 / 1000 := by
  have hF := FloatFmt.wide_fmtOf b32
  have hbb := hF.bias_ge.2
  have hxp : 0 < x := by linarith
  have hxa : |x| = x := abs_of_pos hxp
  have ht : (fmtOf b32).tiny ≤ x := ((FloatFmt.tiny_le hF).trans (by norm_num)).trans h0
  have h1' : x < 2 ^ ((fmtOf b32).bias + 1) := h1.trans_lt (pow_lt_pow_right₀ (by norm_num) (by omega))
  obtain ⟨r1, r2⟩ := pattern_range hF.ok hx ht h1'
  have hm : (0 : ℝ) < 2 ^ (fmtOf b32).mant := by positivity
  have hb : (29 : ℝ) ≤ (fmtOf b32).bias := by exact_mod_cast hbb
  have hbm : (29 : ℝ) * 2 ^ (fmtOf b32).mant ≤ (fmtOf b32).bias * 2 ^ (fmtOf b32).mant := mul_le_mul_of_nonneg_right hb hm.le
  have hN : ((fmtOf b32).encode x : ℝ) ≤ ((fmtOf b32).bias + ((fmtOf b32).bias - 2)) * 2 ^ (fmtOf b32).mant := by
    obtain ⟨q1, q2, q3⟩ := FloatFmt.repr_pattern hF.ok hx ht h1'
    have h3 := (FloatFmt.pattern_pow q1 q2 q3).1.trans h1
    rw [← Real.rpow_natCast 2 ((fmtOf b32).bias - 2), Real.rpow_le_rpow_left_iff (by norm_num), sub_le_iff_le_add, div_le_iff₀ hm, Nat.cast_sub (by omega)] at h3
    push_cast at h3; linarith
  have hε := FloatFmt.eps_pos (F := fmtOf b32)
  have hε' := eps_fmtOf b32
  norm_num at hε'
  obtain ⟨y, L, k1, -, k5, k6, k7, k8⟩ := seed_ieee (b32 := b32) (calls := calls) (env := envSet g "x" (.f x)) (x := x) (a := -1) (b := 2) (p := -1)
    (e := .paren (.paren (.method (.paren (as (.method (.method (v "x") "abs" []) "to_bits" []) "fty")) "mul_add" [-num "1.0", v "EXP2_ONE" * num "2.0"])))
    hx ht h1' (by norm_num) (by simpa using hε.le) (by norm_num) (by norm_num; linarith) (by linarith) (by linarith)
    (by
      intro N' C' hN hC
      simp [numIE_1 hF, numIE_2, hg, hN, hC, hxa])
  obtain ⟨b1, b2⟩ := recip_band hxp.le k5 k6 k7 k8
  have hyp : 0 < y := by
    by_contra hn
    have : x * y ≤ 0 := mul_nonpos_of_nonneg_of_nonpos hxp.le (by linarith)
    linarith
  have hy1 : y ≤ 177 / 10000 := by nlinarith
  have h8 := abs_le.1 (rnd_08 b32)
  obtain ⟨r, e1, e2⟩ := rne_near (b32 := b32) (x := y - (fmtOf b32).rnd (8 / 100)) (by rw [abs_le]; constructor <;> linarith)
  norm_num at e2 h8
  rw [abs_le] at e2
  have hr : r < 0 := by linarith
  refine ⟨-r, ?_, by linarith, by linarith⟩
  simp only [Gen.recip_approx, Gen.powerScale, ofFty_apply, List.map, bindParams, denoteBlock_letT]
  rw [k1]
  simp [numIE_08, e1, not_lt.2 hxp.le, abs_of_neg hr]

/-- A float of at most `-c`, possibly minus infinity. -/
def BelowIE (c : ℝ) (r : RV) : Prop := r = .inf true ∨ ∃ y, r = .f y ∧ y ≤ -c

theorem rne_below {c z : ℝ} (hc : (fmtOf b32).Repr c) (h0 : 0 < c) (h : z ≤ -c) : BelowIE c ((fmtOf b32).rne z) := by
  have h1 := FloatFmt.rnd_le hc.neg h
  have hneg : z < 0 := by linarith
  unfold FloatFmt.rne
  split_ifs <;> simp_all [BelowIE]

theorem rne_above {c z : ℝ} (hc : (fmtOf b32).Repr c) (h0 : 0 < c) (h : c ≤ z) : (fmtOf b32).rne z = .inf false ∨ ∃ y, (fmtOf b32).rne z = .f y ∧ c ≤ y := by
  have h2 : (fmtOf b32).rne z = unRV .neg ((fmtOf b32).rne (-z)) := by rw [← FloatFmt.rne_neg, neg_neg]
  rcases rne_below (z := -z) hc h0 (by linarith) with h1 | ⟨y, h1, hy⟩
  · left; rw [h2, h1]; rfl
  · right; exact ⟨-y, by rw [h2, h1]; rfl, by linarith⟩

theorem recip_step_below {x : ℝ} (hx : 64 ≤ x) {r : RV} (h : BelowIE (1 / 16) r) :
    BelowIE (1 / 16) (binIE (fmtOf b32) .mul r (binIE (fmtOf b32) .sub (.f 2) (binIE (fmtOf b32) .mul (.f x) r))) := by
  have hx0 : 0 < x := by linarith
  have r4 : (fmtOf b32).Repr 4 := by have := repr_two_pow b32 2; norm_num at this; exact this
  have r16 : (fmtOf b32).Repr (1 / 16) := ⟨1, -4, by norm_num, by rw [abs_one]; exact one_le_pow₀ (by norm_num), by cases b32 <;> decide⟩
  rcases h with rfl | ⟨y, rfl, hy⟩
  · rw [mulIE_pos_inf _ hx0, subIE_f_inf]
    exact .inl rfl
  have hy0 : y < 0 := by linarith
  rw [binIE_mul]
  rcases rne_below (b32 := b32) (z := x * y) r4 (by norm_num) (by nlinarith) with h | ⟨w, h, hw⟩
  · rw [h, subIE_f_inf, Bool.not_true, mulIE_neg_inf _ hy0]
    exact .inl rfl
  rw [h, binIE_sub]
  rcases rne_above (b32 := b32) (z := 2 - w) r4 (by norm_num) (by linarith) with h | ⟨u, h, hu⟩
  · rw [h, mulIE_neg_inf _ hy0]
    exact .inl rfl
  rw [h, binIE_mul]
  exact rne_below r16 (by norm_num) (by nlinarith)

/-- **C74** In float arithmetic `recip` is negative, possibly minus infinity, from 64 up to a quarter of the largest power of two. -/
theorem C74_recip_large_wrong (hg : g ["EXP2_ONE"] = .f ((fmtOf b32).bias * 2 ^ (fmtOf b32).mant)) (hc : LinkedIE (fmtOf b32) calls g Gen.recip_approx) {x : ℝ}
    (hx : (fmtOf b32).Repr x) (h0 : 64 ≤ x) (h1 : x ≤ 2 ^ ((fmtOf b32).bias - 2)) :
    Gen.recip.apply (ieeeInterp (fmtOf b32) calls) g [.f x] = .inf true ∨ ∃ y, Gen.recip.apply (ieeeInterp (fmtOf b32) calls) g [.f x] = .f y ∧ y ≤ -(1 / 16) := by
  have r16 : (fmtOf b32).Repr (1 / 16) := ⟨1, -4, by norm_num, by rw [abs_one]; exact one_le_pow₀ (by norm_num), by cases b32 <;> decide⟩
  have r7 : (fmtOf b32).Repr (7 / 2) := ⟨7, -1, by norm_num, by cases b32 <;> decide, by cases b32 <;> decide⟩
  have r3 : (fmtOf b32).Repr (3 / 2) := ⟨3, -1, by norm_num, by cases b32 <;> decide, by cases b32 <;> decide⟩
  obtain ⟨r, h, hr1, hr2⟩ := recip_approx_large (calls := calls) hg hx h0 h1
  have hr0 : 0 < r := by linarith
  have s1 : BelowIE (1 / 16) (binIE (fmtOf b32) .mul (.f r) (binIE (fmtOf b32) .sub (.f 2) (binIE (fmtOf b32) .mul (.f x) (.f r)))) := by
    rw [binIE_mul]
    rcases rne_above (b32 := b32) (z := x * r) r7 (by norm_num) (by nlinarith) with h | ⟨w, h, hw⟩
    · rw [h, subIE_f_inf, Bool.not_false, mulIE_pos_inf _ hr0]
      exact .inl rfl
    rw [h, binIE_sub]
    rcases rne_below (b32 := b32) (z := 2 - w) r3 (by norm_num) (by linarith) with h | ⟨u, h, hu⟩
    · rw [h, mulIE_pos_inf _ hr0]
      exact .inl rfl
    rw [h, binIE_mul]
    exact rne_below r16 (by norm_num) (by nlinarith)
  have := recip_step_below (b32 := b32) h0 (recip_step_below (b32 := b32) h0 s1)
  simp only [recip_run hc, h]
  exact this

/-- `recip(2^7)`. -/
example (b32 : Bool) : Gen.recip.apply (ieeeInterp (fmtOf b32) (seedCallsIE b32)) (seedEnvIE b32) [.f (2 ^ 7)] = .inf true ∨
    ∃ y, Gen.recip.apply (ieeeInterp (fmtOf b32) (seedCallsIE b32)) (seedEnvIE b32) [.f (2 ^ 7)] = .f y ∧ y ≤ -(1 / 16) :=
  C74_recip_large_wrong (seedEnvIE_bits b32) (seedCallsIE_recip b32) (repr_two_pow b32 7) (by norm_num) (pow_le_pow_right₀ (by norm_num) (by cases b32 <;> decide))

end
end Verif

import Verif.Props.IeeeSeeds

/-!
# C76: `exp2` and `log2` on the whole range of floats

What the functions built on `exp2` and `log2` need to know about them.
-/

namespace Verif
open RExpr Dec

/-! ## `round` past its range -/

section
variable {F : FloatFmt} {calls : String → List RV → RV} {g : Name → RV}

/-- What `round` does with the sum of its argument and one half. -/
theorem round_unfold (hF : F.Wide) (x : ℝ) : Gen.round.apply (ieeeInterp F calls) g [.f x] =
    castIE F ["fty"] (castIE F ["ity"] (F.rne (x + if x < 0 then -(1 / 2) else 1 / 2))) := by
  simp only [Gen.round, ofFty_apply, List.map, bindParams]
  simp only [denoteBlock_letU, denoteBlock_expr, denote_as, denote_paren, denote_add, denote_method, denote_v, denoteArgs_cons, denoteArgs_nil, numIE_half hF,
    ieee_cast, ieee_bin, ieee_meth, castIE_fty, envSet_one, String.reduceEq, if_true, if_false, methIE_copysign, binIE_add]
  rw [show |(1 / 2 : ℝ)| = 1 / 2 by norm_num]

/-- The integers of the type are finite as floats. -/
theorem rne_ity (hF : F.Wide) {n : ℤ} (h : |n| ≤ 2 ^ (F.width - 1)) : F.rne n = .f (F.rnd n) := by
  refine FloatFmt.rne_f hF.ok ?_
  have h1 : |(n : ℝ)| ≤ 2 ^ (F.width - 1) := by exact_mod_cast h
  exact h1.trans (pow_le_pow_right₀ (by norm_num) (by have := hF.width; omega))

/-- `round` of a number that is not negative is a number that is not negative. -/
theorem round_nonneg (hF : F.Wide) {x : ℝ} (hx : 0 ≤ x) : ∃ r : ℝ, 0 ≤ r ∧ Gen.round.apply (ieeeInterp F calls) g [.f x] = .f r := by
  have hp : (0 : ℤ) < 2 ^ (F.width - 1) := by positivity
  have key : ∃ n : ℤ, 0 ≤ n ∧ n ≤ 2 ^ (F.width - 1) ∧ castIE F ["ity"] (F.rne (x + 1 / 2)) = .i n := by
    unfold FloatFmt.rne
    split_ifs with h
    · refine ⟨_, ?_, ?_, rfl⟩
      · have h1 : 0 ≤ F.rnd (x + 1 / 2) := FloatFmt.le_rnd FloatFmt.repr_zero (by linarith)
        have h2 : 0 ≤ truncR (F.rnd (x + 1 / 2)) := by unfold truncR; rw [if_pos h1]; exact Int.floor_nonneg.2 h1
        unfold clampZ; split_ifs <;> omega
      · unfold clampZ; split_ifs <;> omega
    · have h2 : ¬ x + 1 / 2 < 0 := by linarith
      rw [decide_eq_false h2]
      exact ⟨2 ^ (F.width - 1) - 1, by omega, by omega, rfl⟩
  obtain ⟨n, h1, h2, h3⟩ := key
  refine ⟨F.rnd n, FloatFmt.le_rnd FloatFmt.repr_zero (by exact_mod_cast h1), ?_⟩
  rw [round_unfold hF, if_neg (not_lt.2 hx), h3, castIE_fty_i, rne_ity hF (by rw [abs_of_nonneg h1]; exact h2)]

/-- `round` of a number below the exponents is below the exponents. -/
theorem round_below (hF : F.Wide) (hb4 : F.bias * 4 ≤ 2 ^ F.mant) {x : ℝ} (hx : x ≤ -F.bias - 1) :
    ∃ r : ℝ, r ≤ -F.bias - 1 ∧ Gen.round.apply (ieeeInterp F calls) g [.f x] = .f r := by
  have hb29 := hF.bias_ge.2
  have hrep : F.Repr (-F.bias - 1 : ℝ) := by
    have hb4' : (F.bias : ℤ) * 4 ≤ 2 ^ F.mant := by exact_mod_cast hb4
    have := FloatFmt.repr_int hF.ok (k := -F.bias - 1) (by rw [abs_of_nonpos (by omega), pow_succ]; omega)
    push_cast at this; exact this
  have hx0 : x < 0 := by have : (0 : ℝ) ≤ F.bias := by positivity
                         linarith
  have hw1 : F.bias + 1 ≤ 2 ^ (F.width - 1) := by
    have h1 : F.mant ≤ F.width - 1 := by unfold FloatFmt.width; omega
    have h2 := Nat.pow_le_pow_right (n := 2) (by norm_num) h1
    omega
  have hw : ((F.bias : ℤ) + 1) ≤ 2 ^ (F.width - 1) := by exact_mod_cast hw1
  have key : ∃ n : ℤ, n ≤ -F.bias - 1 ∧ -2 ^ (F.width - 1) ≤ n ∧ castIE F ["ity"] (F.rne (x + -(1 / 2))) = .i n := by
    unfold FloatFmt.rne
    split_ifs with h
    · refine ⟨_, ?_, ?_, rfl⟩
      · have h1 : F.rnd (x + -(1 / 2)) ≤ -F.bias - 1 := FloatFmt.rnd_le hrep (by linarith)
        have h2 : truncR (F.rnd (x + -(1 / 2))) ≤ -F.bias - 1 := by
          unfold truncR; rw [if_neg (by have : (0 : ℝ) ≤ F.bias := by positivity
                                        linarith)]
          exact Int.ceil_le.2 (by push_cast; exact h1)
        unfold clampZ; split_ifs <;> omega
      · unfold clampZ; split_ifs <;> omega
    · have h2 : x + -(1 / 2) < 0 := by linarith
      rw [decide_eq_true h2]
      exact ⟨-2 ^ (F.width - 1), by omega, by omega, rfl⟩
  obtain ⟨n, h1, h2, h3⟩ := key
  refine ⟨F.rnd n, FloatFmt.rnd_le hrep ?_, ?_⟩
  · have : (n : ℝ) ≤ ((-F.bias - 1 : ℤ) : ℝ) := by exact_mod_cast h1
    push_cast at this; exact this
  rw [round_unfold hF, if_pos hx0, h3, castIE_fty_i, rne_ity hF (by rw [abs_of_nonpos (by omega)]; omega)]

/-- `round` of an infinity is an end of the integer type. -/
theorem round_inf (hF : F.Wide) (s : Bool) : ∃ r : ℝ, Gen.round.apply (ieeeInterp F calls) g [.inf s] = .f r ∧ if s then r = -2 ^ (F.width - 1) else 0 ≤ r := by
  have hp : (0 : ℤ) < 2 ^ (F.width - 1) := by positivity
  have h1 : Gen.round.apply (ieeeInterp F calls) g [.inf s] = F.rne ((if s then -2 ^ (F.width - 1) else 2 ^ (F.width - 1) - 1 : ℤ) : ℝ) := by
    simp only [Gen.round, ofFty_apply, List.map, bindParams]
    simp only [denoteBlock_letU, denoteBlock_expr, denote_as, denote_paren, denote_add, denote_method, denote_v, denoteArgs_cons, denoteArgs_nil, numIE_half hF,
      ieee_cast, ieee_bin, ieee_meth, castIE_fty, envSet_one, String.reduceEq, if_true, if_false]
    rfl
  rw [h1]
  cases s with
  | true =>
    simp only [if_true]
    refine ⟨_, rne_ity hF (by rw [abs_neg, abs_of_pos hp]), ?_⟩
    have := (FloatFmt.repr_zpow (F := F) (e := ((F.width - 1 : ℕ) : ℤ)) (by have := hF.bias_ge; omega)).neg
    rw [zpow_natCast] at this
    push_cast
    exact FloatFmt.rnd_of_repr this
  | false =>
    simp only [if_false, Bool.false_eq_true]
    refine ⟨_, rne_ity hF (by rw [abs_of_nonneg (by omega)]; omega), FloatFmt.le_rnd FloatFmt.repr_zero ?_⟩
    exact_mod_cast (by omega : (0 : ℤ) ≤ 2 ^ (F.width - 1) - 1)

end

/-! ## `exp2` -/

section
variable {F : FloatFmt} {calls : String → List RV → RV} {g : Name → RV}

/-- **C76** `exp2` of every float above the exponent bias is infinity, with any polynomial. -/
theorem C76_exp2_high (hF : F.Wide) (hg : BitConsts F g) (hl : LinkedIE F calls g Gen.round) (p : RExpr) {a : ℝ} (ha : F.bias < a) :
    (Gen.exp2 p).apply (ieeeInterp F calls) g [.f a] = .inf false := by
  have hb0 : (0 : ℝ) ≤ F.bias := by positivity
  obtain ⟨r, hr0, hr⟩ := round_nonneg (calls := calls) (g := g) hF (by linarith : 0 ≤ a)
  have hr' : calls "round" [.f a] = .f r := by rw [← hr]; exact hl _
  have hn : ¬ r < -F.bias := by linarith
  simp only [Gen.exp2, ofFty_apply, List.map, bindParams]
  simp [hr', hg.exp2_max, hg.exp2_min, ha, hn, hg.infinity]

/-- **C76** `exp2` of every float below the exponents of the type is zero. -/
theorem C76_exp2_low (hF : F.Wide) (hb4 : F.bias * 4 ≤ 2 ^ F.mant) (hg : BitConsts F g) (hl : LinkedIE F calls g Gen.round) (p : RExpr) {a : ℝ} (ha : a ≤ -F.bias - 1) :
    (Gen.exp2 p).apply (ieeeInterp F calls) g [.f a] = .f 0 := by
  obtain ⟨r, hr0, hr⟩ := round_below (calls := calls) (g := g) hF hb4 ha
  have hr' : calls "round" [.f a] = .f r := by rw [← hr]; exact hl _
  have hn : r < -F.bias := by linarith
  simp only [Gen.exp2, ofFty_apply, List.map, bindParams]
  simp [hr', hg.exp2_max, hg.exp2_min, hn, numIE_0 hF]

/-- **C76** `exp2` of the infinities. -/
theorem C76_exp2_inf (hF : F.Wide) (hb4 : F.bias * 4 ≤ 2 ^ F.mant) (hg : BitConsts F g) (hl : LinkedIE F calls g Gen.round) (p : RExpr) (s : Bool) :
    (Gen.exp2 p).apply (ieeeInterp F calls) g [.inf s] = if s then .f 0 else .inf false := by
  obtain ⟨r, hr, h⟩ := round_inf (calls := calls) (g := g) hF s
  have hr' : calls "round" [.inf s] = .f r := by rw [← hr]; exact hl _
  have hb0 : (0 : ℝ) ≤ F.bias := by positivity
  cases s with
  | true =>
    simp only [if_true] at h
    have hw1 : F.bias * 4 ≤ 2 ^ (F.width - 1) := hb4.trans (Nat.pow_le_pow_right (by norm_num) (by unfold FloatFmt.width; omega))
    have hw : (F.bias : ℝ) * 4 ≤ 2 ^ (F.width - 1) := by exact_mod_cast hw1
    have hb1 : (29 : ℝ) ≤ F.bias := by exact_mod_cast hF.bias_ge.2
    have hn : r < -F.bias := by rw [h]; linarith
    simp only [Gen.exp2, ofFty_apply, List.map, bindParams]
    simp [hr', hg.exp2_max, hg.exp2_min, hn, numIE_0 hF]
  | false =>
    simp only [if_false, Bool.false_eq_true] at h
    have hn : ¬ r < -F.bias := by linarith
    have hgt : binIE F .gt (.inf false) (.f F.bias) = .b true := by
      have := EReal.coe_lt_top (F.bias : ℝ)
      simp only [binIE, cmpIE, RV.ereal?, RV.b.injEq, decide_eq_true_eq]
      exact this
    simp only [Gen.exp2, ofFty_apply, List.map, bindParams]
    simp [hr', hg.exp2_max, hg.exp2_min, hn, hg.infinity, hgt]

/-- The pattern of the exponent below the normal ones is that of zero. -/
theorem scale_zero (hF : F.Wide) (hg : BitConsts F g) (env : Name → RV)
    (hr : env ["r"] = .f (-F.bias)) (he : ∀ s, s ≠ "r" → s ≠ "x" → s ≠ "arg" → s ≠ "scaled" → env [s] = g [s]) :
    Gen.scaleBits.denote (ieeeInterp F calls) env = .f 0 := by
  have hs := he "EXP2_SCALE" (by decide) (by decide) (by decide) (by decide)
  have ho := he "EXP2_ONE" (by decide) (by decide) (by decide) (by decide)
  rw [hg.exp2_scale] at hs
  rw [hg.exp2_one] at ho
  have hz : F.rne (-(F.bias : ℝ) * 2 ^ F.mant + F.bias * 2 ^ F.mant) = .f 0 := by
    rw [show -(F.bias : ℝ) * 2 ^ F.mant + F.bias * 2 ^ F.mant = 0 by ring]
    exact FloatFmt.rne_repr FloatFmt.repr_zero (by simp)
  have hd : F.decode 0 = .f 0 := by
    rw [FloatFmt.decode_subnormal hF.ok (by positivity)]; simp
  simp only [Gen.scaleBits, denote_fromBits, denote_as, denote_paren, denote_method, denote_v, denoteArgs_cons, denoteArgs_nil, hr, hs, ho,
    ieee_meth, methIE_mul_add, ieee_cast, hz, castIE_uty]
  have hp : (0 : ℤ) < 2 ^ F.width := by positivity
  rw [show truncR 0 = 0 by simp [truncR], clampZ_self le_rfl (by omega), ieee_fromBits F calls _ le_rfl hp]
  exact hd

end

/-- `calls` runs `exp2` with a relative error `δ` between the exponents of the type, and has the limits right outside. -/
structure Exp2IE (F : FloatFmt) (calls : String → List RV → RV) (δ : ℝ) : Prop where
  mid : ∀ a, F.Repr a → 1 - (F.bias : ℝ) ≤ a → a ≤ F.bias → ∃ y, calls "exp2" [.f a] = .f y ∧ |y - (2 : ℝ) ^ a| ≤ δ * (2 : ℝ) ^ a
  low : ∀ a, F.Repr a → a < 1 - (F.bias : ℝ) → ∃ y, calls "exp2" [.f a] = .f y ∧ 0 ≤ y ∧ y ≤ 3 / 2 * F.tiny
  high : ∀ a : ℝ, F.bias < a → calls "exp2" [.f a] = .inf false
  inf : ∀ s, calls "exp2" [.inf s] = if s then .f 0 else .inf false

/-- The bound of `exp2` in float arithmetic. -/
noncomputable def exp2Bound (b32 : Bool) (u w : ℝ) : ℝ :=
  √2 * (exp2Err b32 + 2 * u + 12 * w + exp2Ops b32 * (fmtOf b32).eps) + 5 * (fmtOf b32).eps

section
variable {ext : BdExt} {fx : FloatExt} {b32 : Bool} {u w : ℝ}

theorem exp2_poly_small (h : IeeeOk fx b32 u w) (hu : u ≤ 1 / 1000) (hw : w ≤ 1 / 1000) :
    0 ≤ exp2Err b32 + 2 * u + 12 * w + exp2Ops b32 * (fmtOf b32).eps ∧ exp2Err b32 + 2 * u + 12 * w + exp2Ops b32 * (fmtOf b32).eps ≤ 2 / 100 := by
  have hε := FloatFmt.eps_pos (F := fmtOf b32)
  have heps := eps_fmtOf b32
  have hn := h.nonneg
  constructor
  · have h3 : 0 ≤ exp2Err b32 := by unfold exp2Err; split <;> norm_num
    have h4 : 0 ≤ exp2Ops b32 * (fmtOf b32).eps := mul_nonneg (by unfold exp2Ops; split <;> norm_num) hε.le
    linarith [hn.1, hn.2]
  · have h3 : exp2Err b32 ≤ 1 / 1000 := by unfold exp2Err; split <;> norm_num
    have h4 : exp2Ops b32 * (fmtOf b32).eps ≤ 23 * (1 / 2 ^ 24) := mul_le_mul (by unfold exp2Ops; split <;> norm_num) heps hε.le (by norm_num)
    norm_num at h4; linarith

theorem exp2Bound_small (h : IeeeOk fx b32 u w) (hu : u ≤ 1 / 1000) (hw : w ≤ 1 / 1000) : 0 ≤ exp2Bound b32 u w ∧ exp2Bound b32 u w ≤ 3 / 100 := by
  obtain ⟨h1, h2⟩ := exp2_poly_small h hu hw
  have hε := FloatFmt.eps_pos (F := fmtOf b32)
  have heps := eps_fmtOf b32
  have hs := sqrt_two_bounds
  unfold exp2Bound
  generalize exp2Err b32 + 2 * u + 12 * w + exp2Ops b32 * (fmtOf b32).eps = E at *
  norm_num at heps
  constructor
  · positivity
  · nlinarith

/-- **C76** `exp2` as the program ships it, in float arithmetic, of every float: a relative error between the exponents of the type, at most `3/2` of the smallest
normal number below them, infinity above the exponent bias. -/
theorem C76_exp2 (hf : 5 ≤ ext.fuel) (h : IeeeOk fx b32 u w) (hu : u ≤ 1 / 1000) (hw : w ≤ 1 / 1000) : ∃ e, polynomialCode ext fx b32 .exp2 ⟨-5, 1⟩ ⟨5, 1⟩ = .ok e ∧
    ∀ (calls : String → List RV → RV) (g : Name → RV), BitConsts (fmtOf b32) g → LinkedIE (fmtOf b32) calls g Gen.round → LinkedIE (fmtOf b32) calls g (Gen.exp2 e.toR) →
      Exp2IE (fmtOf b32) calls (exp2Bound b32 u w) := by
  obtain ⟨e, h1, h2⟩ := exp2_code_ieee (ext := ext) h hu hw hf
  have hF := FloatFmt.wide_fmtOf b32
  have hb4 := bias_lt_mant b32
  obtain ⟨hE0, hE1⟩ := exp2_poly_small h hu hw
  refine ⟨e, h1, fun calls g hg hl hx => ⟨fun a har ha hb => ?_, fun a har ha => ?_, fun a ha => ?_, fun s => ?_⟩⟩
  · obtain ⟨e', h1', h3⟩ := C83_exp2 (ext := ext) hf h hu hw
    rw [h1] at h1'; cases h1'
    obtain ⟨y, hy, he⟩ := h3 calls g hg hl a har ha hb
    exact ⟨y, (hx _).trans hy, he⟩
  · have hx' := hx [.f a]
    rcases le_or_gt a (-(fmtOf b32).bias - 1) with hlow | hlow
    · rw [C76_exp2_low hF hb4 hg hl _ hlow] at hx'
      exact ⟨0, hx', le_rfl, by have := FloatFmt.tiny_pos (F := fmtOf b32); positivity⟩
    have hb29N := hF.bias_ge.2
    have hb29 : (29 : ℝ) ≤ (fmtOf b32).bias := by exact_mod_cast hb29N
    have hb4R : ((fmtOf b32).bias : ℝ) * 4 ≤ 2 ^ (fmtOf b32).mant := by exact_mod_cast hb4
    have heps := eps_fmtOf b32
    norm_num at heps
    have hε := FloatFmt.eps_pos (F := fmtOf b32)
    have hτ := FloatFmt.tiny_pos (F := fmtOf b32)
    obtain ⟨r, hn, hd1, hd2, -, -⟩ := round_ieee (calls := calls) (g := g) hF har (by rw [abs_of_neg (by linarith)]; linarith)
    have hr : calls "round" [.f a] = .f r := by rw [← hn]; exact hl _
    have hx1 := abs_le.1 hd1
    have hx2 := abs_le.1 hd2
    have hB := (FloatFmt.bias_pow_ge hF).1
    norm_num at hB
    have hxf : (fmtOf b32).rne (a - r) = .f ((fmtOf b32).rnd (a - r)) := FloatFmt.rne_f hF.ok (by rw [abs_le]; constructor <;> linarith)
    generalize (fmtOf b32).rnd (a - r) = x at *
    have hm : x ∈ Set.Icc (-(1 / 2) : ℝ) (1 / 2) := by simpa using hx1
    obtain ⟨P, hP, he⟩ := (h2 calls).1
    have hPx := he x hm
    obtain ⟨hp0, hp1⟩ := two_pow_half hd1
    have hp2 := two_pow_half_ge hd1
    have hPb := abs_le.1 hPx
    simp only at hPb
    have hna : ¬ (fmtOf b32).bias < a := by linarith
    have hr1 : r < 2 - ((fmtOf b32).bias : ℤ) := by
      have : (r : ℝ) < 2 - ((fmtOf b32).bias : ℤ) := by push_cast; linarith
      exact_mod_cast this
    have hr2 : -2 - ((fmtOf b32).bias : ℤ) < r := by
      have : (-2 - ((fmtOf b32).bias : ℤ) : ℝ) < r := by push_cast; linarith
      exact_mod_cast this
    have hcases : r < -((fmtOf b32).bias : ℤ) ∨ r = -((fmtOf b32).bias : ℤ) ∨ r = 1 - ((fmtOf b32).bias : ℤ) := by omega
    rcases hcases with hc | hc | hc
    · have hcR : (r : ℝ) < -(fmtOf b32).bias := by exact_mod_cast hc
      refine ⟨0, hx'.trans ?_, le_rfl, by positivity⟩
      simp only [Gen.exp2, ofFty_apply, List.map, bindParams]
      simp [hr, hg.exp2_min, hcR, numIE_0 hF]
    · have hcR : (r : ℝ) = -(fmtOf b32).bias := by rw [hc]; push_cast; rfl
      refine ⟨0, hx'.trans ?_, le_rfl, by positivity⟩
      have hc0 : ¬ (r : ℝ) < -(fmtOf b32).bias := by rw [hcR]; exact lt_irrefl _
      have hz : (fmtOf b32).rne 0 = .f 0 := by
        exact FloatFmt.rne_repr FloatFmt.repr_zero (by simp)
      simp only [Gen.exp2, ofFty_apply, List.map, bindParams]
      simp [hr, hxf, hg.exp2_max, hg.exp2_min, hna, hc0]
      rw [scale_zero hF hg _ (by simp [hcR]) (by intro s a b c d; simp [a, b, c])]
      rw [hP _ x (by simp) hm]
      simp [hz]
    · have hcR : ¬ (r : ℝ) < -(fmtOf b32).bias := by rw [hc]; push_cast; linarith
      have hrep : (fmtOf b32).Repr (3 / 2 * (fmtOf b32).tiny) := by
        refine FloatFmt.repr_of_multiple (k := 3) (e := -((fmtOf b32).bias : ℤ)) ?_ (by have := hF.mant; omega) ?_
        · unfold FloatFmt.tiny; rw [zpow_sub₀ (by norm_num), zpow_neg]; push_cast; ring
        · rw [abs_of_pos (by positivity)]
          calc 3 / 2 * (fmtOf b32).tiny ≤ 2 * (fmtOf b32).tiny := by linarith
            _ = (2 : ℝ) ^ (2 - ((fmtOf b32).bias : ℤ)) := by unfold FloatFmt.tiny; rw [← zpow_one_add₀ (by norm_num)]; congr 1; ring
            _ ≤ _ := zpow_le_zpow_right₀ (by norm_num) (by have := hF.mant; omega)
      have hpow : (2 : ℝ) ^ r = (fmtOf b32).tiny := by rw [hc]; rfl
      have hle : P x * 2 ^ r ≤ 3 / 2 * (fmtOf b32).tiny := by
        rw [hpow]; exact mul_le_mul_of_nonneg_right (by linarith) hτ.le
      have hge : 0 ≤ P x * 2 ^ r := by rw [hpow]; exact mul_nonneg (by linarith) hτ.le
      have k1 : (fmtOf b32).rne (P x * 2 ^ r) = .f ((fmtOf b32).rnd (P x * 2 ^ r)) := (scale_product hF (by rw [abs_le]; constructor <;> linarith) (by omega) (by omega)).1
      refine ⟨(fmtOf b32).rnd (P x * 2 ^ r), hx'.trans ?_, FloatFmt.le_rnd FloatFmt.repr_zero hge, FloatFmt.rnd_le hrep hle⟩
      simp only [Gen.exp2, ofFty_apply, List.map, bindParams]
      simp [hr, hxf, hg.exp2_max, hg.exp2_min, hna, hcR]
      rw [scale_ieee hF (bits_fmtOf b32) hg r (by omega) (by omega) _ (by simp) (by intro s a b c d; simp [a, b, c])]
      rw [hP _ x (by simp) hm]
      simp [k1]
  · rw [← C76_exp2_high hF hg hl e.toR ha]; exact hx _
  · rw [← C76_exp2_inf hF hb4 hg hl e.toR s]; exact hx _

end
end Verif

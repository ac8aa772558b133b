import Verif.Props.IeeeSpecial

/-!
# C88: NaN and the infinities as arguments of the functions of the shipped library
-/

namespace Verif
open RExpr

section
variable {ext : BdExt} {fx : FloatExt} {b32 : Bool} {P : Gen.Parts} {calls : String → List RV → RV} {g : Name → RV} {u w : ℝ}

/-- A constant of the library that is not too small is positive. -/
theorem LibraryOk.const_pos (h : LibraryOk ext fx b32 P calls g u w) {name : String} {m : ℝ} (hm : (name, m) ∈ constMeaning) (h1 : 1 / 10 ≤ m) (h4 : m ≤ 4) : ∃ c, g [name] = .f c ∧ 0 < c := by
  obtain ⟨c, hc, -, he⟩ := h.const hm (by rw [abs_le]; constructor <;> linarith)
  rw [abs_of_pos (by linarith : 0 < m)] at he
  have hε := FloatFmt.eps_pos (F := fmtOf b32)
  have heps := eps_fmtOf b32
  norm_num at heps
  have := abs_le.1 he
  exact ⟨c, hc, by nlinarith⟩

/-! ## Exponentials -/

/-- **C88** `exp2` of NaN. -/
theorem C88_exp2 (h : LibraryOk ext fx b32 P calls g u w) : calls "exp2" [.nan] = .nan := by
  obtain ⟨e, h1, h2⟩ := exp2_code_ieee (ext := ext) h.lits h.hu h.hw (by have := h.fuel; omega)
  have ha := h.approx .exp2 (by simp [approxSpecs]) _ _ e rfl h1
  have hl : LinkedIE (fmtOf b32) calls g (Gen.exp2 e.toR) := h.fn "exp2" (by decide +kernel) (by rw [← ha]; rfl)
  exact (hl _).trans (exp2_nan (FloatFmt.wide_fmtOf b32) (by cases b32 <;> decide) h.bits h.round (h2 calls).2)

/-- **C88** `exp` of NaN. -/
theorem C88_exp (h : LibraryOk ext fx b32 P calls g u w) : calls "exp" [.nan] = .nan := by
  obtain ⟨c, hc, -⟩ := h.log2_e
  rw [show calls "exp" [.nan] = _ from h.fn "exp" (by decide +kernel) rfl [.nan]]
  simp only [Gen.exp, ofFty_apply, List.map, bindParams]
  simp [hc, C88_exp2 h]

/-- The polynomial of `exp_m1`. -/
theorem LibraryOk.exp_m1_fn (h : LibraryOk ext fx b32 P calls g u w) : ∃ p, LinkedIE (fmtOf b32) calls g (Gen.exp_m1 p) ∧ SpecialIE (ieeeInterp (fmtOf b32) calls) "x" p := by
  obtain ⟨e, h1, h2⟩ := exp_m1_code_ieee (ext := ext) h.lits h.hu h.hw (by have := h.fuel; omega)
  have ha := h.approx .exp_m1 (by simp [approxSpecs]) _ _ e rfl h1
  exact ⟨e.toR, h.fn "exp_m1" (by decide +kernel) (by rw [← ha]; rfl), (h2 calls).2⟩

theorem LibraryOk.round_nan (h : LibraryOk ext fx b32 P calls g u w) : calls "round" [.nan] = .f 0 := (h.round _).trans (C88_round_wrong (FloatFmt.wide_fmtOf b32))
theorem LibraryOk.round_inf (h : LibraryOk ext fx b32 P calls g u w) (s : Bool) : calls "round" [.inf s] = .f (if s then -2 ^ ((fmtOf b32).width - 1) else 2 ^ ((fmtOf b32).width - 1)) :=
  (h.round _).trans (round_infinity (FloatFmt.wide_fmtOf b32) s)

/-- **C88** `exp_m1` of NaN. -/
theorem C88_exp_m1 (h : LibraryOk ext fx b32 P calls g u w) : calls "exp_m1" [.nan] = .nan := by
  have hF := FloatFmt.wide_fmtOf b32
  obtain ⟨p, hl, hp⟩ := h.exp_m1_fn
  obtain ⟨c, hc, -⟩ := h.log2_e
  have hb := FloatFmt.bias_pos hF.ok
  have hs := scale_ieee hF (by cases b32 <;> decide) h.bits 0 (calls := calls) (by omega) (by omega) (envSet (envSet (envSet g "arg" .nan) "scaled" .nan) "r" (.f 0)) (by simp)
    (fun s h1 _ h3 h4 => by simp [h1, h3, h4])
  rw [zpow_zero] at hs
  rw [show calls "exp_m1" [.nan] = _ from hl _]
  simp only [Gen.exp_m1, ofFty_apply, List.map, bindParams]
  simp only [denoteBlock_letT, denoteBlock_expr, denote_app, denoteArgs_cons, denoteArgs_nil, denote_v, denote_mul, envSet_one, String.reduceEq, if_true, if_false, hc,
    ieee_bin, mulIE_nan_f]
  rw [show (ieeeInterp (fmtOf b32) calls).call ["round"] [.nan] = .f 0 from h.round_nan, hs]
  simp [hp.nan _ (by simp : envSet (envSet (envSet (envSet (envSet g "arg" .nan) "scaled" .nan) "r" (.f 0)) "mul" (.f 1)) "x" .nan ["x"] = .nan), numIE_1 hF]
  exact nan_add (FloatFmt.rne_isFloat _)

/-- The factor of `exp_m1` at the infinities: all bits are set, or none. -/
theorem scale_infinity (h : BitConsts (fmtOf b32) g) (s : Bool) (env : Name → RV)
    (hr : env ["r"] = .f (if s then -2 ^ ((fmtOf b32).width - 1) else 2 ^ ((fmtOf b32).width - 1))) (he : ∀ s, s ≠ "r" → s ≠ "x" → s ≠ "arg" → s ≠ "scaled" → env [s] = g [s]) :
    Gen.scaleBits.denote (ieeeInterp (fmtOf b32) calls) env = if s then .f 0 else .nan := by
  have hF := FloatFmt.wide_fmtOf b32
  have hs := he "EXP2_SCALE" (by decide) (by decide) (by decide) (by decide)
  have ho := he "EXP2_ONE" (by decide) (by decide) (by decide) (by decide)
  rw [h.exp2_scale] at hs
  rw [h.exp2_one] at ho
  have hp : (0 : ℤ) < 2 ^ (fmtOf b32).width := by positivity
  simp only [Gen.scaleBits, denote_fromBits, denote_as, denote_paren, denote_method, denote_v, denoteArgs_cons, denoteArgs_nil, hr, hs, ho,
    ieee_meth, methIE_mul_add, ieee_cast]
  have hM : (1 : ℝ) ≤ 2 ^ (fmtOf b32).mant := one_le_pow₀ (by norm_num)
  have hbias : (0 : ℝ) ≤ (fmtOf b32).bias := by positivity
  have hbw : ((fmtOf b32).bias : ℝ) ≤ 2 ^ ((fmtOf b32).width - 1) := by
    exact_mod_cast (by cases b32 <;> decide : (fmtOf b32).bias ≤ 2 ^ ((fmtOf b32).width - 1))
  have hww : 2 ^ ((fmtOf b32).width - 1) * (2 : ℝ) ^ (fmtOf b32).mant ≤ 2 ^ 120 ∧ (fmtOf b32).bias * (2 : ℝ) ^ (fmtOf b32).mant ≤ 2 ^ 100 := by
    cases b32 <;> norm_num [fmtOf, FloatFmt.f32, FloatFmt.f64, FloatFmt.width, FloatFmt.bias]
  cases s with
  | true =>
    simp only [if_true]
    have hneg : -2 ^ ((fmtOf b32).width - 1) * (2 : ℝ) ^ (fmtOf b32).mant + (fmtOf b32).bias * 2 ^ (fmtOf b32).mant ≤ 0 := by nlinarith
    have hr := FloatFmt.rne_f (F := fmtOf b32) (x := -2 ^ ((fmtOf b32).width - 1) * (2 : ℝ) ^ (fmtOf b32).mant + (fmtOf b32).bias * 2 ^ (fmtOf b32).mant) hF.ok (by
      have h0 : (0 : ℝ) ≤ (fmtOf b32).bias * 2 ^ (fmtOf b32).mant := by positivity
      have : (2 : ℝ) ^ 120 ≤ 2 ^ (fmtOf b32).bias := pow_le_pow_right₀ (by norm_num) (by cases b32 <;> decide)
      rw [abs_of_nonpos hneg]; linarith [hww.1])
    rw [hr, castIE_uty]
    have hrn := FloatFmt.rnd_le (F := fmtOf b32) FloatFmt.repr_zero hneg
    have hz : clampZ 0 (2 ^ (fmtOf b32).width - 1) (truncR ((fmtOf b32).rnd (-2 ^ ((fmtOf b32).width - 1) * 2 ^ (fmtOf b32).mant + (fmtOf b32).bias * 2 ^ (fmtOf b32).mant))) = 0 := by
      have : truncR ((fmtOf b32).rnd (-2 ^ ((fmtOf b32).width - 1) * 2 ^ (fmtOf b32).mant + (fmtOf b32).bias * 2 ^ (fmtOf b32).mant)) ≤ 0 := by
        unfold truncR
        split
        · exact_mod_cast Int.floor_nonpos hrn
        · simp only [Int.ceil_le]; exact_mod_cast hrn
      unfold clampZ; omega
    rw [hz, ieee_fromBits _ calls _ le_rfl hp]
    rw [Int.toNat_zero, FloatFmt.decode_subnormal hF.ok (by positivity)]; simp
  | false =>
    simp only [Bool.false_eq_true, if_false]
    have hM2 : (2 : ℝ) ≤ 2 ^ (fmtOf b32).mant := by
      have : (2 : ℝ) ^ 1 ≤ 2 ^ (fmtOf b32).mant := pow_le_pow_right₀ (by norm_num) hF.ok.mant
      linarith
    have hwp : (0 : ℝ) < 2 ^ ((fmtOf b32).width - 1) := by positivity
    have hw2 : (2 : ℝ) ^ (fmtOf b32).width = 2 * 2 ^ ((fmtOf b32).width - 1) := by rw [← pow_succ']; congr 1
    have h0 : (0 : ℝ) ≤ (fmtOf b32).bias * 2 ^ (fmtOf b32).mant := by positivity
    have hge : (2 : ℝ) ^ (fmtOf b32).width ≤ 2 ^ ((fmtOf b32).width - 1) * (2 : ℝ) ^ (fmtOf b32).mant + (fmtOf b32).bias * 2 ^ (fmtOf b32).mant := by nlinarith
    have hr := FloatFmt.rne_f (F := fmtOf b32) (x := 2 ^ ((fmtOf b32).width - 1) * (2 : ℝ) ^ (fmtOf b32).mant + (fmtOf b32).bias * 2 ^ (fmtOf b32).mant) hF.ok (by
      have : (2 : ℝ) ^ 121 ≤ 2 ^ (fmtOf b32).bias := pow_le_pow_right₀ (by norm_num) (by cases b32 <;> decide)
      rw [abs_of_nonneg (by linarith)]; norm_num at hww this ⊢; linarith [hww.1, hww.2])
    rw [hr, castIE_uty]
    have hrn := FloatFmt.le_rnd (F := fmtOf b32) (repr_two_pow b32 _) hge
    have hz : clampZ 0 (2 ^ (fmtOf b32).width - 1) (truncR ((fmtOf b32).rnd (2 ^ ((fmtOf b32).width - 1) * 2 ^ (fmtOf b32).mant + (fmtOf b32).bias * 2 ^ (fmtOf b32).mant))) = 2 ^ (fmtOf b32).width - 1 := by
      have : 2 ^ (fmtOf b32).width ≤ truncR ((fmtOf b32).rnd (2 ^ ((fmtOf b32).width - 1) * 2 ^ (fmtOf b32).mant + (fmtOf b32).bias * 2 ^ (fmtOf b32).mant)) := by
        unfold truncR
        rw [if_pos (by linarith), Int.le_floor]; push_cast; exact hrn
      unfold clampZ; omega
    rw [hz, ieee_fromBits _ calls _ (by omega) (by omega)]
    cases b32 <;> norm_num [fmtOf, FloatFmt.f32, FloatFmt.f64, FloatFmt.width, FloatFmt.decode, show Int.toNat 18446744073709551615 = 18446744073709551615 from rfl,
      show Int.toNat 4294967295 = 4294967295 from rfl]

/-- **C88** `exp_m1` of the infinities is NaN; the limits are infinity and -1. -/
theorem C88_exp_m1_inf_wrong (h : LibraryOk ext fx b32 P calls g u w) (s : Bool) : calls "exp_m1" [.inf s] = .nan := by
  have hF := FloatFmt.wide_fmtOf b32
  obtain ⟨p, hl, hp⟩ := h.exp_m1_fn
  obtain ⟨c, hc, -, -, hc1, -⟩ := h.log2_e
  obtain ⟨r, hr⟩ : ∃ r : ℝ, r = if s then -2 ^ ((fmtOf b32).width - 1) else 2 ^ ((fmtOf b32).width - 1) := ⟨_, rfl⟩
  have hs := scale_infinity (calls := calls) h.bits s (envSet (envSet (envSet g "arg" (.inf s)) "scaled" (.inf s)) "r" (.f r)) (by simp [hr])
    (fun s h1 _ h3 h4 => by simp [h1, h3, h4])
  rw [show calls "exp_m1" [.inf s] = _ from hl _]
  simp only [Gen.exp_m1, ofFty_apply, List.map, bindParams]
  simp only [denoteBlock_letT, denoteBlock_expr, denote_app, denoteArgs_cons, denoteArgs_nil, denote_v, denote_mul, envSet_one, String.reduceEq, if_true, if_false, hc,
    ieee_bin, mulIE_inf_pos _ (by linarith : 0 < c)]
  rw [show (ieeeInterp (fmtOf b32) calls).call ["round"] [.inf s] = .f r from hr ▸ h.round_inf s, hs]
  obtain ⟨m, hm⟩ : ∃ m, m = (if s = true then RV.f 0 else RV.nan) := ⟨_, rfl⟩
  rw [← hm]
  have hmf : m.IsFloat := by rw [hm]; split <;> constructor
  have hy : binIE (fmtOf b32) .mul (p.denote (ieeeInterp (fmtOf b32) calls) (envSet (envSet (envSet (envSet (envSet g "arg" (.inf s)) "scaled" (.inf s)) "r" (.f r)) "mul" m) "x" (.inf s))) m = .nan := by
    rcases hp.inf _ s (by simp : envSet (envSet (envSet (envSet (envSet g "arg" (.inf s)) "scaled" (.inf s)) "r" (.f r)) "mul" m) "x" (.inf s) ["x"] = .inf s) with h1 | ⟨t, h1⟩
    · rw [h1]; exact nan_mul hmf
    · rw [h1, hm]
      cases s <;> simp [mulIE_inf_zero]
  simp [hy, numIE_1 hF]
  exact nan_add (subIE_isFloat hmf (.f 1))

/-! ## Sine, cosine and tangent -/

theorem LibraryOk.sinLike_fn (h : LibraryOk ext fx b32 P calls g u w) {n : String} (hn : n = "sin" ∨ n = "cos") :
    ∃ p, LinkedIE (fmtOf b32) calls g (Gen.sinLike n p) ∧ SpecialIE (ieeeInterp (fmtOf b32) calls) "x" p := by
  rcases hn with rfl | rfl
  · obtain ⟨e, h1, h2⟩ := sin_code_ieee (ext := ext) h.lits h.hu h.hw
    have ha := h.approx .sin (by simp [approxSpecs]) _ _ e rfl h1
    exact ⟨e.toR, h.fn "sin" (by decide +kernel) (by rw [← ha]; rfl), (h2 calls).2⟩
  · obtain ⟨e, h1, h2⟩ := cos_code_ieee (ext := ext) h.lits h.hu h.hw
    have ha := h.approx .cos (by simp [approxSpecs]) _ _ e rfl h1
    exact ⟨e.toR, h.fn "cos" (by decide +kernel) (by rw [← ha]; rfl), (h2 calls).2⟩

/-- `sin` and `cos` of the special values: NaN of NaN; of an infinity, a NaN or an infinity. -/
theorem LibraryOk.sinLike_special (h : LibraryOk ext fx b32 P calls g u w) {n : String} (hn : n = "sin" ∨ n = "cos") :
    calls n [.nan] = .nan ∧ ∀ s, calls n [.inf s] = .nan ∨ ∃ t, calls n [.inf s] = .inf t := by
  obtain ⟨p, hl, hp⟩ := h.sinLike_fn hn
  have hpi := Real.pi_lt_d2
  have hpi0 := Real.pi_gt_three
  obtain ⟨c, hc, hc0⟩ := h.const_pos (name := "RECIP_2PI") (m := 1 / (2 * Real.pi)) (by simp [constMeaning]) (by rw [le_div_iff₀ (by positivity)]; linarith) (by rw [div_le_iff₀ (by positivity)]; linarith)
  refine ⟨?_, fun s => ?_⟩
  · rw [show calls n [.nan] = _ from hl [.nan]]
    simp only [Gen.sinLike, ofFty_apply, List.map, bindParams]
    simp [hc, h.round_nan]
    exact hp.nan _ (by simp)
  · rw [show calls n [.inf s] = _ from hl [.inf s]]
    simp only [Gen.sinLike, ofFty_apply, List.map, bindParams]
    have := hp.inf (envSet (envSet (envSet g "arg" (.inf s)) "scaled" (.inf s)) "x" (.inf s)) s (by simp)
    simpa [hc, mulIE_inf_pos _ hc0, h.round_inf] using this

/-- **C88** `sin` and `cos` of NaN. -/
theorem C88_sin_cos (h : LibraryOk ext fx b32 P calls g u w) : calls "sin" [.nan] = .nan ∧ calls "cos" [.nan] = .nan :=
  ⟨(h.sinLike_special (.inl rfl)).1, (h.sinLike_special (.inr rfl)).1⟩

/-- **C88** `sin` and `cos` of an infinity are not finite; whether NaN or an infinity depends on the polynomial. -/
theorem C88_sin_cos_inf_partial (h : LibraryOk ext fx b32 P calls g u w) (s : Bool) :
    (calls "sin" [.inf s] = .nan ∨ ∃ t, calls "sin" [.inf s] = .inf t) ∧ (calls "cos" [.inf s] = .nan ∨ ∃ t, calls "cos" [.inf s] = .inf t) :=
  ⟨(h.sinLike_special (.inl rfl)).2 s, (h.sinLike_special (.inr rfl)).2 s⟩

/-- **C88** `tan` of NaN and of the infinities is NaN. -/
theorem C88_tan (h : LibraryOk ext fx b32 P calls g u w) : calls "tan" [.nan] = .nan ∧ ∀ s, calls "tan" [.inf s] = .nan := by
  have hF := FloatFmt.wide_fmtOf b32
  obtain ⟨e, h1, h2⟩ := tan_code_ieee (ext := ext) h.lits h.hu h.hw
  have ha := h.approx .tan (by simp [approxSpecs]) _ _ e rfl h1
  have hl : LinkedIE (fmtOf b32) calls g (Gen.tan e.toR) := h.fn "tan" (by decide +kernel) (by rw [← ha]; rfl)
  have hp := (h2 calls).2
  have hpi := Real.pi_lt_d2
  have hpi0 := Real.pi_gt_three
  obtain ⟨c, hc, hc0⟩ := h.const_pos (name := "RECIP_PI") (m := 1 / Real.pi) (by simp [constMeaning]) (by rw [le_div_iff₀ (by positivity)]; linarith) (by rw [div_le_iff₀ (by positivity)]; linarith)
  refine ⟨?_, fun s => ?_⟩
  · rw [show calls "tan" [.nan] = _ from hl [.nan]]
    simp only [Gen.tan, ofFty_apply, List.map, bindParams]
    simp [hc, h.round_nan, numIE_1 hF, numIE_quarter hF]
    rw [hp.nan _ (by simp)]; rfl
  · rw [show calls "tan" [.inf s] = _ from hl [.inf s]]
    simp only [Gen.tan, ofFty_apply, List.map, bindParams]
    simp [hc, mulIE_inf_pos _ hc0, h.round_inf, numIE_1 hF, numIE_quarter hF]
    rcases hp.inf (envSet (envSet (envSet (envSet g "arg" (.inf s)) "scaled" (.inf s)) "x" (.inf s)) "recip" (.f 0)) s (by simp) with h3 | ⟨t, h3⟩ <;> rw [h3]
    · rfl
    · exact mulIE_inf_zero _ _

/-! ## Inverse trigonometric functions -/

theorem lim_ieee (b32 : Bool) (calls : String → List RV → RV) : ∃ l k, (∀ env, (num "0.70710678118654752440").denote (ieeeInterp (fmtOf b32) calls) env = .f l) ∧ (fmtOf b32).rne (l * l) = .f k := by
  have h0 : |asinLim| ≤ 1 := by unfold asinLim; rw [abs_of_pos (by positivity)]; norm_num
  have h1 : |(fmtOf b32).rnd asinLim| ≤ 1 := FloatFmt.abs_rnd_le (repr_one b32) h0
  refine ⟨(fmtOf b32).rnd asinLim, _, fun env => ?_, rne_small ?_⟩
  · rw [denoteIE_num (d := ⟨70710678118654752440, 20⟩) _ _ _ rfl, asin_val.2]
    exact rne_small (h0.trans (by norm_num))
  · rw [abs_mul]
    have := mul_le_mul h1 h1 (abs_nonneg _) (by norm_num)
    exact this.trans (by norm_num)

/-- **C88** `asin` of NaN and of the infinities is NaN. -/
theorem C88_asin (h : LibraryOk ext fx b32 P calls g u w) : calls "asin" [.nan] = .nan ∧ ∀ s, calls "asin" [.inf s] = .nan := by
  have hF := FloatFmt.wide_fmtOf b32
  obtain ⟨e, h1, h2⟩ := asin_code_ieee (ext := ext) h.sqrt h.fuel h.lits h.hu h.hw
  have ha := h.approx .asin (by simp [approxSpecs]) _ _ e rfl h1
  have hl : LinkedIE (fmtOf b32) calls g (Gen.asin e.toR) := h.fn "asin" (by decide +kernel) (by rw [← ha]; rfl)
  have hp := (h2 calls).2
  have hpi := Real.pi_lt_d2
  have hpi0 := Real.pi_gt_three
  obtain ⟨c, hc, hc0⟩ := h.const_pos (name := "PI_BY_2") (m := Real.pi / 2) (by simp [constMeaning]) (by linarith) (by linarith)
  obtain ⟨l, k, hl', hk⟩ := lim_ieee b32 calls
  refine ⟨?_, fun s => ?_⟩
  · rw [show calls "asin" [.nan] = _ from hl [.nan]]
    simp only [Gen.asin, ofFty_apply, List.map, bindParams]
    simp [hc, hl', hk, numIE_0 hF, numIE_1 hF, Gen.insideLim, Gen.edgeArg]
    rw [hp.nan _ (by simp)]; simp
  · rw [show calls "asin" [.inf s] = _ from hl [.inf s]]
    simp only [Gen.asin, ofFty_apply, List.map, bindParams]
    cases s <;> simp [hc, hl', hk, numIE_0 hF, numIE_1 hF, Gen.insideLim, Gen.edgeArg] <;> rw [hp.nan _ (by simp)] <;> simp

/-- **C88** `acos` of NaN and of the infinities is NaN. -/
theorem C88_acos (h : LibraryOk ext fx b32 P calls g u w) : calls "acos" [.nan] = .nan ∧ ∀ s, calls "acos" [.inf s] = .nan := by
  have hF := FloatFmt.wide_fmtOf b32
  obtain ⟨e, h1, h2⟩ := acos_code_ieee (ext := ext) h.sqrt h.fuel h.lits h.hu h.hw
  have ha := h.approx .acos (by simp [approxSpecs]) _ _ e rfl h1
  have hl : LinkedIE (fmtOf b32) calls g (Gen.acos e.toR) := h.fn "acos" (by decide +kernel) (by rw [← ha]; rfl)
  have hp := (h2 calls).2
  have hpi := Real.pi_lt_d2
  have hpi0 := Real.pi_gt_three
  obtain ⟨c, hc, hc0⟩ := h.const_pos (name := "PI") (m := Real.pi) (by simp [constMeaning]) (by linarith) (by linarith)
  obtain ⟨l, k, hl', hk⟩ := lim_ieee b32 calls
  refine ⟨?_, fun s => ?_⟩
  · rw [show calls "acos" [.nan] = _ from hl [.nan]]
    simp only [Gen.acos, ofFty_apply, List.map, bindParams]
    simp [hc, hl', hk, numIE_0 hF, numIE_1 hF, Gen.insideLim, Gen.edgeArg]
    rw [hp.nan _ (by simp)]; simp
  · rw [show calls "acos" [.inf s] = _ from hl [.inf s]]
    simp only [Gen.acos, ofFty_apply, List.map, bindParams]
    cases s <;> simp [hc, hl', hk, numIE_0 hF, numIE_1 hF, Gen.insideLim, Gen.edgeArg] <;> rw [hp.nan _ (by simp)] <;> simp

/-- **C88** `atan` of NaN is NaN, and of the infinities a right angle. -/
theorem C88_atan (h : LibraryOk ext fx b32 P calls g u w) : calls "atan" [.nan] = .nan ∧ ∀ s, ∃ y, calls "atan" [.inf s] = .f y ∧
    |y - (if s then -(Real.pi / 2) else Real.pi / 2)| ≤ atanErr b32 + 3 * u + 36 * w + atanOps b32 * (fmtOf b32).eps + constErr b32 + 8 * (fmtOf b32).eps := by
  have hF := FloatFmt.wide_fmtOf b32
  obtain ⟨e, h1, h2⟩ := atan_code_ieee (ext := ext) h.lits h.hu h.hw h.sqrt (by have := h.fuel; omega)
  have ha := h.approx .atan (by simp [approxSpecs]) _ _ e rfl h1
  have hl : LinkedIE (fmtOf b32) calls g (Gen.atan e.toR) := h.fn "atan" (by decide +kernel) (by rw [← ha]; rfl)
  have hp := (h2 calls).2
  obtain ⟨Q, hQ, he⟩ := (h2 calls).1
  have hpi := Real.pi_lt_d2
  have hpi0 := Real.pi_gt_three
  obtain ⟨c, hc, hc1, hc2⟩ := h.consts.half_pi h.sqrt h.fuel
  refine ⟨?_, fun s => ?_⟩
  · rw [show calls "atan" [.nan] = _ from hl [.nan]]
    simp only [Gen.atan, ofFty_apply, List.map, bindParams]
    simp [hc, numIE_0 hF, numIE_1 hF]
    rw [hp.nan _ (by simp)]; simp
  · have h0 : (0 : ℝ) ∈ Set.Icc (-1 : ℝ) 1 := ⟨by norm_num, by norm_num⟩
    have hE := he 0 h0
    rw [Real.arctan_zero, sub_zero] at hE
    obtain ⟨E, hEE⟩ : ∃ E, E = atanErr b32 + 3 * u + 36 * w + atanOps b32 * (fmtOf b32).eps := ⟨_, rfl⟩
    rw [← hEE] at hE ⊢
    have hε := FloatFmt.eps_pos (F := fmtOf b32)
    have heps := eps_fmtOf b32
    have hE1 : E ≤ 1 / 2 := by
      have h3 : atanErr b32 ≤ 1 / 1000 := by unfold atanErr; split <;> norm_num
      have h4 : atanOps b32 * (fmtOf b32).eps ≤ 90 * (1 / 2 ^ 24) := mul_le_mul (by unfold atanOps; split <;> norm_num) heps hε.le (by norm_num)
      have := h.hu; have := h.hw
      rw [hEE]; norm_num at h4; linarith
    have hτ1 := FloatFmt.tiny_le hF
    norm_num at hτ1
    have hE' := abs_le.1 hE
    have hc3 := abs_le.1 hc1
    have hc4 := abs_le.1 hc2
    have hrun : ∀ z : ℝ, |z| ≤ 2 → |(fmtOf b32).rnd (z - Q 0) - (z - Q 0)| ≤ 3 * (fmtOf b32).eps ∧ (fmtOf b32).rne (z - Q 0) = .f ((fmtOf b32).rnd (z - Q 0)) := by
      intro z hz
      have hz' := abs_le.1 hz
      have hb : |z - Q 0| ≤ 5 / 2 := by rw [abs_le]; constructor <;> linarith
      refine ⟨(FloatFmt.rnd_err _).trans ?_, rne_small (hb.trans (by norm_num))⟩
      have := mul_le_mul_of_nonneg_left (by linarith : |z - Q 0| + (fmtOf b32).tiny ≤ 3) hε.le
      linarith
    rw [show calls "atan" [.inf s] = _ from hl [.inf s]]
    simp only [Gen.atan, ofFty_apply, List.map, bindParams]
    cases s
    · obtain ⟨r1, r2⟩ := hrun c (by rw [abs_le]; constructor <;> linarith)
      refine ⟨(fmtOf b32).rnd (c - Q 0), ?_, ?_⟩
      · simp [hc, numIE_0 hF, numIE_1 hF]
        rw [hQ _ 0 (by simp) h0, binIE_sub, r2]
      · have r1' := abs_le.1 r1
        simp only [Bool.false_eq_true, if_false]
        rw [abs_le]; constructor <;> linarith
    · obtain ⟨r1, r2⟩ := hrun (-c) (by rw [abs_neg, abs_le]; constructor <;> linarith)
      refine ⟨(fmtOf b32).rnd (-c - Q 0), ?_, ?_⟩
      · simp [hc, numIE_0 hF, numIE_1 hF]
        rw [hQ _ 0 (by simp) h0, binIE_sub, r2]
      · have r1' := abs_le.1 r1
        simp only [if_true]
        rw [abs_le]; constructor <;> linarith

/-- **C88** `atan2` is NaN when an argument is, and also when one is infinite. -/
theorem C88_atan2 (h : LibraryOk ext fx b32 P calls g u w) (lo hi : Dec) (hlo : lo.val = -hi.val) (hhi : |(hi.val : ℝ) - Real.tan (Real.pi / 8)| ≤ 1 / 10 ^ 16) :
    ∃ e, polynomialCode ext fx b32 .atan2 lo hi = .ok e ∧ ∀ x y : RV, x.IsFloat → y.IsFloat → (x = .nan ∨ y = .nan ∨ (∃ s, x = .inf s) ∨ (∃ s, y = .inf s)) →
      (Gen.atan2 e.toR).apply (ieeeInterp (fmtOf b32) calls) g [y, x] = .nan := by
  have hF := FloatFmt.wide_fmtOf b32
  obtain ⟨e, h1, h2⟩ := atan2_code_ieee (ext := ext) h.sqrt (by have := h.fuel; omega) h.lits h.hu h.hw lo hi hlo hhi
  refine ⟨e, h1, ?_⟩
  have hp := (h2 calls).2
  have hpi := Real.pi_lt_d2
  have hpi0 := Real.pi_gt_three
  have htb := tan_eighth_bounds
  norm_num at htb
  obtain ⟨k, hk, -⟩ := h.const_pos (name := "PI") (m := Real.pi) (by simp [constMeaning]) (by linarith) (by linarith)
  obtain ⟨c, hc, -⟩ := h.const_pos (name := "PI_BY_2") (m := Real.pi / 2) (by simp [constMeaning]) (by linarith) (by linarith)
  obtain ⟨q, hq, -⟩ := h.const_pos (name := "PI_BY_8") (m := Real.pi / 8) (by simp [constMeaning]) (by linarith) (by linarith)
  obtain ⟨T, hT, hT0⟩ := h.const_pos (name := "TAN_PI_BY_8") (m := Real.tan (Real.pi / 8)) (by simp [constMeaning]) (by linarith) (by linarith)
  have hneg : -T < 0 := by linarith
  intro x y hx hy hxy
  simp only [Gen.atan2, ofFty_apply, List.map, bindParams]
  have hrn : ∀ r : ℝ, binIE (fmtOf b32) .add ((fmtOf b32).rne r) .nan = .nan := fun r => add_nan (FloatFmt.rne_isFloat r)
  have hri : ∀ r : ℝ, binIE (fmtOf b32) .add ((fmtOf b32).rne (T * |r|)) (.inf false) = .inf false := fun r => by
    have : ¬ T * |r| < 0 := not_lt.2 (by positivity)
    unfold FloatFmt.rne
    split
    · rfl
    · simp [this, binIE, addIE]
  have hii : binIE (fmtOf b32) .add (.inf false) (.inf false) = .inf false := by simp [binIE, addIE]
  have hij : binIE (fmtOf b32) .add (.inf true) (.inf false) = .nan := by simp [binIE, addIE]
  cases hx with
  | nan =>
    cases hy with
    | nan => simp [hT]; rw [hp.nan _ (by simp)]; simp [hk, hc, hq]
    | f y => simp [hT, hrn, nan_div]; rw [hp.nan _ (by simp)]; simp [hk, hc, hq]
    | inf s => simp [hT, mulIE_neg_inf _ hneg, mulIE_pos_inf _ hT0]; rw [hp.nan _ (by simp)]; simp [hk, hc, hq]
  | f x =>
    cases hy with
    | nan => simp [hT, hrn, nan_div]; rw [hp.nan _ (by simp)]; simp [hk, hc, hq]
    | f y => simp at hxy
    | inf s => simp [hT, mulIE_neg_inf _ hneg, hri]; rw [hp.nan _ (by simp)]; simp [hk, hc, hq]
  | inf s =>
    cases hy with
    | nan => simp [hT, mulIE_neg_inf _ hneg, mulIE_pos_inf _ hT0]; rw [hp.nan _ (by simp)]; simp [hk, hc, hq]
    | f y => simp [hT, mulIE_neg_inf _ hneg, hri]; rw [hp.nan _ (by simp)]; simp [hk, hc, hq]
    | inf t => simp [hT, mulIE_neg_inf _ hneg, mulIE_pos_inf _ hT0, hii, hij]; rw [hp.nan _ (by simp)]; simp [hk, hc, hq]

end
end Verif

import Verif.Props.IeeeParity
import Verif.Props.IeeeSpecialRoot
import Verif.Props.IeeeExamples

/-!
# C108: the symmetries of the generated functions in float arithmetic

Generated `round`, `sin`, `tan`, `asin`, `atan`, `sinh` and `atanh` are exactly odd and `cos` and `cosh` exactly even.  This holds for every float, however large,
where the reduction of the argument is no longer accurate, and for the infinities and NaN.  `tanh` and `asinh` are not odd.
-/

namespace Verif
open RExpr
section
variable {F : FloatFmt} {calls : String → List RV → RV} {g : Name → RV}

theorem cast_top (hF : F.Wide) : castIE F ["fty"] (.i (2 ^ (F.width - 1) - 1)) = .f (2 ^ (F.width - 1)) := by
  have h := round_infinity (calls := fun _ _ => .junk) (g := fun _ => .junk) hF false
  simp only [Gen.round, ofFty_apply, List.map, bindParams] at h
  simpa [numIE_half hF] using h

theorem cast_bot (hF : F.Wide) : castIE F ["fty"] (.i (-2 ^ (F.width - 1))) = .f (-2 ^ (F.width - 1)) := by
  have h := round_infinity (calls := fun _ _ => .junk) (g := fun _ => .junk) hF true
  simp only [Gen.round, ofFty_apply, List.map, bindParams] at h
  simpa [numIE_half hF] using h

/-- The conversion to the integer type and back commutes with negation, though the integer type has one more negative number. -/
theorem cast_neg (hF : F.Wide) {a : RV} (ha : a.IsFloat) :
    castIE F ["fty"] (castIE F ["ity"] (unRV .neg a)) = unRV .neg (castIE F ["fty"] (castIE F ["ity"] a)) := by
  have ht := cast_top hF
  have hb := cast_bot hF
  have hp : (0 : ℤ) < 2 ^ (F.width - 1) := by positivity
  cases ha with
  | f x =>
    show castIE F ["fty"] (.i (clampZ _ _ (truncR (-x)))) = unRV .neg (castIE F ["fty"] (.i (clampZ _ _ (truncR x))))
    rw [FloatFmt.truncR_neg]
    generalize truncR x = n
    rcases le_or_gt (2 ^ (F.width - 1)) n with h | h
    · rw [show clampZ (-2 ^ (F.width - 1)) (2 ^ (F.width - 1) - 1) n = 2 ^ (F.width - 1) - 1 by unfold clampZ; split_ifs <;> omega,
        show clampZ (-2 ^ (F.width - 1)) (2 ^ (F.width - 1) - 1) (-n) = -2 ^ (F.width - 1) by unfold clampZ; split_ifs <;> omega, ht, hb]
      rfl
    rcases le_or_gt n (-2 ^ (F.width - 1)) with h' | h'
    · rw [show clampZ (-2 ^ (F.width - 1)) (2 ^ (F.width - 1) - 1) n = -2 ^ (F.width - 1) by unfold clampZ; split_ifs <;> omega,
        show clampZ (-2 ^ (F.width - 1)) (2 ^ (F.width - 1) - 1) (-n) = 2 ^ (F.width - 1) - 1 by unfold clampZ; split_ifs <;> omega, ht, hb]
      show RV.f _ = RV.f _
      rw [neg_neg]
    · rw [clampZ_self (by omega) (by omega), clampZ_self (by omega) (by omega)]
      show F.rne ((-n : ℤ) : ℝ) = unRV .neg (F.rne (n : ℝ))
      rw [Int.cast_neg, FloatFmt.rne_neg]
  | inf s =>
    cases s
    · show castIE F ["fty"] (.i (-2 ^ (F.width - 1))) = unRV .neg (castIE F ["fty"] (.i (2 ^ (F.width - 1) - 1)))
      rw [ht, hb]; rfl
    · show castIE F ["fty"] (.i (2 ^ (F.width - 1) - 1)) = unRV .neg (castIE F ["fty"] (.i (-2 ^ (F.width - 1))))
      rw [ht, hb]; show RV.f _ = RV.f _; rw [neg_neg]
  | nan =>
    show F.rne ((0 : ℤ) : ℝ) = unRV .neg (F.rne ((0 : ℤ) : ℝ))
    rw [← FloatFmt.rne_neg]; simp

theorem round_eq (hF : F.Wide) (x : ℝ) : Gen.round.apply (ieeeInterp F calls) g [.f x] = castIE F ["fty"] (castIE F ["ity"] (F.rne (x + if x < 0 then -(1 / 2) else 1 / 2))) := by
  simp only [Gen.round, ofFty_apply, List.map, bindParams]
  simp only [denoteBlock_letU, denoteBlock_expr, denote_as, denote_paren, denote_add, denote_method, denote_v, denoteArgs_cons, denoteArgs_nil, numIE_half hF,
    ieee_cast, ieee_bin, ieee_meth, castIE_fty, envSet_one, String.reduceEq, if_true, if_false, methIE_copysign, binIE_add]
  rw [show |(1 / 2 : ℝ)| = 1 / 2 by norm_num]

/-- **C108** Generated `round` is exactly odd on all floats. -/
theorem C108_round (hF : F.Wide) {a : RV} (ha : a.IsFloat) :
    Gen.round.apply (ieeeInterp F calls) g [unRV .neg a] = unRV .neg (Gen.round.apply (ieeeInterp F calls) g [a]) := by
  cases ha with
  | f x =>
    show Gen.round.apply (ieeeInterp F calls) g [.f (-x)] = _
    rw [round_eq hF, round_eq hF]
    rcases eq_or_ne x 0 with rfl | hx
    · rw [neg_zero]
      obtain ⟨n, h1, -, -, -, h4⟩ := round_ieee (calls := calls) (g := g) hF (FloatFmt.repr_zero (F := F)) (by simp)
      have he := FloatFmt.eps_le hF
      have hn : n = 0 := by
        have : |(n : ℝ)| < 1 := by norm_num at he h4; linarith
        exact Int.abs_lt_one_iff.1 (by exact_mod_cast this)
      rw [round_eq hF, hn] at h1
      rw [h1]
      simp [unRV]
    · rw [show (-x + if -x < 0 then -(1 / 2) else 1 / 2) = -(x + if x < 0 then -(1 / 2 : ℝ) else 1 / 2) by
        rcases lt_or_gt_of_ne hx with h | h
        · rw [if_pos h, if_neg (by linarith)]; ring
        · rw [if_neg (not_lt.2 h.le), if_pos (neg_lt_zero.2 h)]; ring, FloatFmt.rne_neg]
      exact cast_neg hF (FloatFmt.rne_isFloat _)
  | inf s =>
    show Gen.round.apply (ieeeInterp F calls) g [.inf !s] = _
    rw [round_infinity hF, round_infinity hF]
    cases s <;> simp [unRV]
  | nan =>
    show Gen.round.apply (ieeeInterp F calls) g [.nan] = _
    rw [C88_round_wrong hF]; simp [unRV]

theorem mulIE_comm' {a b : RV} (ha : a.IsFloat) (hb : b.IsFloat) : binIE F .mul a b = binIE F .mul b a := by
  cases ha <;> cases hb <;> simp only [binIE, mulIE, mul_comm, Bool.xor_comm]

theorem neg_mulIE {a b : RV} (ha : a.IsFloat) (hb : b.IsFloat) : binIE F .mul (unRV .neg a) b = unRV .neg (binIE F .mul a b) := by
  rw [mulIE_comm' (negIE_isFloat ha) hb, mulIE_neg hb ha, mulIE_comm' hb ha]

theorem subIE_neg {a b : RV} (ha : a.IsFloat) (hb : b.IsFloat) : binIE F .sub (unRV .neg a) (unRV .neg b) = unRV .neg (binIE F .sub a b) := by
  cases ha with
  | f x =>
    cases hb with
    | f y => show F.rne (-x + - -y) = unRV .neg (F.rne (x + -y)); rw [← FloatFmt.rne_neg]; congr 1; ring
    | inf s => rfl
    | nan => rfl
  | inf s =>
    cases hb with
    | f y => rfl
    | inf t => cases s <;> cases t <;> rfl
    | nan => rfl
  | nan => cases hb <;> rfl
end

/-- At the negative argument the code has the negative value. -/
def OddIE (I : RInterp RV) (var : String) (p : RExpr) : Prop :=
  ∀ env env' : Name → RV, (env [var]).IsFloat → env' [var] = unRV .neg (env [var]) → p.denote I env' = unRV .neg (p.denote I env)

/-- At the negative argument the code has the same value. -/
def EvenIE (I : RInterp RV) (var : String) (p : RExpr) : Prop :=
  ∀ env env' : Name → RV, (env [var]).IsFloat → env' [var] = unRV .neg (env [var]) → p.denote I env' = p.denote I env

section
variable {ext : BdExt} {fx : FloatExt} {b32 : Bool} {u w : ℝ}

theorem LitOk.polynomialCode_parity (h : IeeeOk fx b32 u w) (s : ApproxSpec) {lo hi : Dec} (hb : s.bounds = some (lo, hi))
    {N : ℕ} (hk : shippedTerms s.name b32 = N + 1) {f : ℝ → ℝ} {ε : ℚ} (ht : WithinTerms ext s (N + 1) (configDigits b32) f ε)
    {W τ A : ℝ} (A' : ℝ) (hlo : (lo.val : ℝ) = -W) (hhi : (hi.val : ℝ) = W) (hW : 1 / 10 ≤ W) (hW1 : W ≤ 1)
    (hf : NearPoly f N W τ A) (hτ : 0 ≤ τ) (hA : A + 2 * (ε + τ) * ((24143 / 10000) ^ (N + 1) / (14142 / 10000)) ≤ A') (hbig : A' ≤ 10 ^ 30 * W ^ N)
    {e : Expr} (he : polynomialCode ext fx b32 s lo hi = .ok e) (calls : String → List RV → RV) :
    (s.parity = .odd → OddIE (ieeeInterp (fmtOf b32) calls) s.var e.toR) ∧ (s.parity = .even → EvenIE (ieeeInterp (fmtOf b32) calls) s.var e.toR) := by
  obtain ⟨lo', hi', r, terms, h1, h2, h3, h4, -, h6, h7⟩ := ht
  rw [hb] at h1
  cases h1
  rw [hlo, hhi] at h7
  have hε : (0 : ℝ) ≤ ε := (abs_nonneg _).trans (h7 0 ⟨by linarith, by linarith⟩)
  obtain ⟨hsize, -, -⟩ := h.code_coeffs (δ := 0) (L := 0) terms s.parity N h4 (by linarith) hW1 h7 hf
    ((add_le_add_right (mul_le_mul_of_nonneg_left (silver_sum_le N) (by positivity)) A).trans hA) hbig le_rfl (by norm_num) (fun x c _ _ hxc => by
      have : x - c = 0 := abs_nonpos_iff.1 hxc
      rw [sub_eq_zero.1 this]; simp)
  obtain ⟨r', e', k1, k2, k3⟩ := C107_parity h terms s.var s.parity (by omega) (by rw [h4]; exact h6) hsize
  rw [h3] at k1
  cases k1
  have : polynomialCode ext fx b32 s lo hi = .ok e' := by rw [polynomialCode, hk, h2, Res.ok_bind, k2]
  rw [he] at this
  cases this
  exact ⟨fun hp env env' a b => (k3 calls env env' a b).1 hp, fun hp env env' a b => (k3 calls env env' a b).2 hp⟩

theorem sin_code_odd (h : IeeeOk fx b32 u w) {e : Expr} (he : polynomialCode ext fx b32 .sin ⟨-5, 1⟩ ⟨5, 1⟩ = .ok e) (calls : String → List RV → RV) :
    OddIE (ieeeInterp (fmtOf b32) calls) "x" e.toR := by
  cases b32 with
  | true => exact (h.polynomialCode_parity .sin rfl (by decide) (sin_sharp_12 ext).1 (116 / 10) half_val.1 half_val.2 (by norm_num) (by norm_num) (sin_sharp_12 ext).2 (by positivity) (by norm_num) (by norm_num) he calls).1 rfl
  | false => exact (h.polynomialCode_parity .sin rfl (by decide) (sin_sharp_24 ext).1 (116 / 10) half_val.1 half_val.2 (by norm_num) (by norm_num) (sin_sharp_24 ext).2 (by positivity) (by norm_num) (by norm_num) he calls).1 rfl

theorem cos_code_even (h : IeeeOk fx b32 u w) {e : Expr} (he : polynomialCode ext fx b32 .cos ⟨-5, 1⟩ ⟨5, 1⟩ = .ok e) (calls : String → List RV → RV) :
    EvenIE (ieeeInterp (fmtOf b32) calls) "x" e.toR := by
  cases b32 with
  | true => exact (h.polynomialCode_parity .cos rfl (by decide) (cos_sharp_13 ext).1 (116 / 10) half_val.1 half_val.2 (by norm_num) (by norm_num) (cos_sharp_13 ext).2 (by positivity) (by norm_num) (by norm_num) he calls).2 rfl
  | false => exact (h.polynomialCode_parity .cos rfl (by decide) (cos_sharp_25 ext).1 (116 / 10) half_val.1 half_val.2 (by norm_num) (by norm_num) (cos_sharp_25 ext).2 (by positivity) (by norm_num) (by norm_num) he calls).2 rfl

theorem tan_code_odd (h : IeeeOk fx b32 u w) {e : Expr} (he : polynomialCode ext fx b32 .tan ⟨-499999, 6⟩ ⟨499999, 6⟩ = .ok e) (calls : String → List RV → RV) :
    OddIE (ieeeInterp (fmtOf b32) calls) "x" e.toR := by
  cases b32 with
  | true => exact (h.polynomialCode_parity .tan rfl (by decide) (tan_sharp_12 ext).1 (47 / 100) tan_val.1 tan_val.2 (by norm_num) (by norm_num) (tan_sharp_12 ext).2 (by positivity) (by norm_num) (by norm_num) he calls).1 rfl
  | false => exact (h.polynomialCode_parity .tan rfl (by decide) (tan_sharp_24 ext).1 (47 / 100) tan_val.1 tan_val.2 (by norm_num) (by norm_num) (tan_sharp_24 ext).2 (by positivity) (by norm_num) (by norm_num) he calls).1 rfl

end

section
variable {ext : BdExt} {fx : FloatExt} {b32 : Bool} {P : Gen.Parts} {calls : String → List RV → RV} {g : Name → RV} {u w : ℝ}

theorem LibraryOk.round_neg (h : LibraryOk ext fx b32 P calls g u w) {a : RV} (ha : a.IsFloat) : calls "round" [unRV .neg a] = unRV .neg (calls "round" [a]) := by
  rw [show calls "round" [unRV .neg a] = _ from h.round _, show calls "round" [a] = _ from h.round _]
  exact C108_round (FloatFmt.wide_fmtOf b32) ha

theorem LibraryOk.round_float (h : LibraryOk ext fx b32 P calls g u w) {a : RV} (ha : a.IsFloat) : (calls "round" [a]).IsFloat := by
  have hF := FloatFmt.wide_fmtOf b32
  have key : ∀ n : ℤ, (castIE (fmtOf b32) ["fty"] (.i n)).IsFloat := fun n => FloatFmt.rne_isFloat _
  rw [show calls "round" [a] = _ from h.round _]
  cases ha with
  | f x =>
    have hx : ((fmtOf b32).rne (x + if x < 0 then -(1 / 2) else 1 / 2)).IsFloat := FloatFmt.rne_isFloat _
    show (Gen.round.apply (ieeeInterp (fmtOf b32) calls) g [.f x]).IsFloat
    rw [round_eq hF]
    revert hx
    generalize (fmtOf b32).rne (x + if x < 0 then -(1 / 2) else 1 / 2) = v
    intro hx
    cases hx <;> exact key _
  | inf s =>
    show (Gen.round.apply (ieeeInterp (fmtOf b32) calls) g [.inf s]).IsFloat
    rw [round_infinity hF]; constructor
  | nan =>
    show (Gen.round.apply (ieeeInterp (fmtOf b32) calls) g [.nan]).IsFloat
    rw [C88_round_wrong hF]; constructor

/-- The argument after reduction to a fraction of a period. -/
noncomputable def sinArg (b32 : Bool) (calls : String → List RV → RV) (c : ℝ) (a : RV) : RV :=
  binIE (fmtOf b32) .sub (binIE (fmtOf b32) .mul a (.f c)) (calls "round" [binIE (fmtOf b32) .mul a (.f c)])

theorem LibraryOk.sinArg_neg (h : LibraryOk ext fx b32 P calls g u w) (c : ℝ) {a : RV} (ha : a.IsFloat) :
    sinArg b32 calls c (unRV .neg a) = unRV .neg (sinArg b32 calls c a) ∧ (sinArg b32 calls c a).IsFloat := by
  have hs := mulIE_isFloat (F := fmtOf b32) ha (.f c)
  refine ⟨?_, subIE_isFloat hs (h.round_float hs)⟩
  unfold sinArg
  rw [neg_mulIE ha (.f c), h.round_neg hs, subIE_neg hs (h.round_float hs)]

theorem sinLike_sinArg {n : String} {p : RExpr} {c : ℝ} (hc : g ["RECIP_2PI"] = .f c) (a : RV) :
    (Gen.sinLike n p).apply (ieeeInterp (fmtOf b32) calls) g [a] = p.denote (ieeeInterp (fmtOf b32) calls)
      (envSet (envSet (envSet g "arg" a) "scaled" (binIE (fmtOf b32) .mul a (.f c))) "x" (sinArg b32 calls c a)) := by
  simp only [Gen.sinLike, ofFty_apply, List.map, bindParams]
  simp [hc]
  rfl

theorem LibraryOk.recip_2pi (h : LibraryOk ext fx b32 P calls g u w) : ∃ c, g ["RECIP_2PI"] = .f c := by
  have hpi := Real.pi_lt_d2
  have hpi0 := Real.pi_gt_three
  obtain ⟨c, hc, -⟩ := h.const_pos (name := "RECIP_2PI") (m := 1 / (2 * Real.pi)) (by simp [constMeaning]) (by rw [le_div_iff₀ (by positivity)]; linarith) (by rw [div_le_iff₀ (by positivity)]; linarith)
  exact ⟨c, hc⟩

/-- **C108** `sin` of the library is exactly odd. -/
theorem C108_sin (h : LibraryOk ext fx b32 P calls g u w) {a : RV} (ha : a.IsFloat) : calls "sin" [unRV .neg a] = unRV .neg (calls "sin" [a]) := by
  obtain ⟨e, h1, -⟩ := sin_code_ieee (ext := ext) h.lits h.hu h.hw
  have hap := h.approx .sin (by simp [approxSpecs]) _ _ e rfl h1
  have hl : LinkedIE (fmtOf b32) calls g (Gen.sinLike "sin" e.toR) := h.fn "sin" (by decide +kernel) (by rw [← hap]; rfl)
  obtain ⟨c, hc⟩ := h.recip_2pi
  obtain ⟨k1, k2⟩ := h.sinArg_neg c ha
  rw [show calls "sin" [unRV .neg a] = _ from hl _, show calls "sin" [a] = _ from hl _]
  rw [sinLike_sinArg hc, sinLike_sinArg hc]
  exact sin_code_odd h.lits h1 calls _ _ (by simpa using k2) (by simpa using k1)

/-- **C108** `cos` of the library is exactly even. -/
theorem C108_cos (h : LibraryOk ext fx b32 P calls g u w) {a : RV} (ha : a.IsFloat) : calls "cos" [unRV .neg a] = calls "cos" [a] := by
  obtain ⟨e, h1, -⟩ := cos_code_ieee (ext := ext) h.lits h.hu h.hw
  have hap := h.approx .cos (by simp [approxSpecs]) _ _ e rfl h1
  have hl : LinkedIE (fmtOf b32) calls g (Gen.sinLike "cos" e.toR) := h.fn "cos" (by decide +kernel) (by rw [← hap]; rfl)
  obtain ⟨c, hc⟩ := h.recip_2pi
  obtain ⟨k1, k2⟩ := h.sinArg_neg c ha
  rw [show calls "cos" [unRV .neg a] = _ from hl _, show calls "cos" [a] = _ from hl _]
  rw [sinLike_sinArg hc, sinLike_sinArg hc]
  exact cos_code_even h.lits h1 calls _ _ (by simpa using k2) (by simpa using k1)

/-- The factor of `tan` with the pole. -/
noncomputable def tanRecip (b32 : Bool) (x : RV) : RV :=
  binIE (fmtOf b32) .div (.f 1) (binIE (fmtOf b32) .sub (binIE (fmtOf b32) .mul x x) (.f (1 / 4)))

theorem tan_sinArg {p : RExpr} {c : ℝ} (hc : g ["RECIP_PI"] = .f c) (a : RV) :
    (Gen.tan p).apply (ieeeInterp (fmtOf b32) calls) g [a] = binIE (fmtOf b32) .mul (p.denote (ieeeInterp (fmtOf b32) calls)
      (envSet (envSet (envSet (envSet g "arg" a) "scaled" (binIE (fmtOf b32) .mul a (.f c))) "x" (sinArg b32 calls c a)) "recip" (tanRecip b32 (sinArg b32 calls c a))))
      (tanRecip b32 (sinArg b32 calls c a)) := by
  have hF := FloatFmt.wide_fmtOf b32
  simp only [Gen.tan, ofFty_apply, List.map, bindParams]
  simp [hc, numIE_1 hF, numIE_quarter hF, tanRecip]
  rfl

/-- **C108** `tan` of the library is exactly odd. -/
theorem C108_tan (h : LibraryOk ext fx b32 P calls g u w) {a : RV} (ha : a.IsFloat) : calls "tan" [unRV .neg a] = unRV .neg (calls "tan" [a]) := by
  obtain ⟨e, h1, h2⟩ := tan_code_ieee (ext := ext) h.lits h.hu h.hw
  have hap := h.approx .tan (by simp [approxSpecs]) _ _ e rfl h1
  have hl : LinkedIE (fmtOf b32) calls g (Gen.tan e.toR) := h.fn "tan" (by decide +kernel) (by rw [← hap]; rfl)
  have hpi := Real.pi_lt_d2
  have hpi0 := Real.pi_gt_three
  obtain ⟨c, hc, -⟩ := h.const_pos (name := "RECIP_PI") (m := 1 / Real.pi) (by simp [constMeaning]) (by rw [le_div_iff₀ (by positivity)]; linarith) (by rw [div_le_iff₀ (by positivity)]; linarith)
  obtain ⟨k1, k2⟩ := h.sinArg_neg c ha
  have hr : tanRecip b32 (unRV .neg (sinArg b32 calls c a)) = tanRecip b32 (sinArg b32 calls c a) := by
    unfold tanRecip; rw [square_neg k2]
  have hrf : (tanRecip b32 (sinArg b32 calls c a)).IsFloat := divIE_isFloat (.f 1) (subIE_isFloat (mulIE_isFloat k2 k2) (.f _))
  rw [show calls "tan" [unRV .neg a] = _ from hl _, show calls "tan" [a] = _ from hl _]
  rw [tan_sinArg hc, tan_sinArg hc, k1, hr, tan_code_odd h.lits h1 calls
    (envSet (envSet (envSet (envSet g "arg" a) "scaled" (binIE (fmtOf b32) .mul a (.f c))) "x" (sinArg b32 calls c a)) "recip" (tanRecip b32 (sinArg b32 calls c a))) _ (by simpa using k2) (by simp)]
  exact neg_mulIE ((h2 calls).2.float _ (by simpa using k2)) hrf

/-! ## Hyperbolic functions -/

theorem LibraryOk.exp2_isFloat (h : LibraryOk ext fx b32 P calls g u w) {a : RV} (ha : a.IsFloat) : (calls "exp2" [a]).IsFloat := by
  have hF := FloatFmt.wide_fmtOf b32
  obtain ⟨e, h1, h2⟩ := exp2_code_ieee (ext := ext) h.lits h.hu h.hw (by have := h.fuel; omega)
  have hap := h.approx .exp2 (by simp [approxSpecs]) _ _ e rfl h1
  have hl : LinkedIE (fmtOf b32) calls g (Gen.exp2 e.toR) := h.fn "exp2" (by decide +kernel) (by rw [← hap]; rfl)
  have hr := h.round_float ha
  rw [show calls "exp2" [a] = _ from hl _]
  simp only [Gen.exp2, ofFty_apply, List.map, bindParams]
  simp only [denoteBlock_letT, denoteBlock_letU, denoteBlock_expr, denote_app, denoteArgs_cons, denoteArgs_nil, denote_v, envSet_one, String.reduceEq, if_true, if_false]
  rw [show (ieeeInterp (fmtOf b32) calls).call ["round"] [a] = calls "round" [a] from rfl]
  have hs : (Gen.scaleBits.denote (ieeeInterp (fmtOf b32) calls) (envSet (envSet g "arg" a) "r" (calls "round" [a]))).IsFloat := by
    refine fromBits_isFloat ?_
    simp only [denote_paren, denote_method, denoteArgs_cons, denoteArgs_nil, denote_v, ieee_meth, envSet_one, String.reduceEq, if_true, if_false, h.bits.exp2_scale, h.bits.exp2_one]
    exact mul_addIE_isFloat hr (.f _) (.f _)
  generalize Gen.scaleBits.denote (ieeeInterp (fmtOf b32) calls) (envSet (envSet g "arg" a) "r" (calls "round" [a])) = m at hs ⊢
  have hx : (binIE (fmtOf b32) .sub a (calls "round" [a])).IsFloat := subIE_isFloat ha hr
  have hy := mulIE_isFloat (F := fmtOf b32) ((h2 calls).2.float (envSet (envSet (envSet (envSet g "arg" a) "r" (calls "round" [a])) "mul" m) "x" (binIE (fmtOf b32) .sub a (calls "round" [a]))) (by simpa using hx)) hs
  simp [numIE_0 hF, h.bits.infinity]
  split_ifs
  · exact .f _
  · exact .inf _
  · exact hy

theorem mul_addIE_neg {F : FloatFmt} {a : RV} (ha : a.IsFloat) (c z : ℝ) : methIE F "mul_add" (unRV .neg a) [.f c, .f z] = methIE F "mul_add" a [.f (-c), .f z] := by
  cases ha with
  | f x => show F.rne (-x * c + z) = F.rne (x * -c + z); congr 1; ring
  | inf s =>
    show addIE F (binIE F .mul (unRV .neg (.inf s)) (.f c)) (.f z) = addIE F (binIE F .mul (.inf s) (unRV .neg (.f c))) (.f z)
    rw [neg_mulIE (.inf s) (.f c), mulIE_neg (.inf s) (.f c)]
  | nan => rfl

theorem subIE_swap {F : FloatFmt} {a b : RV} (ha : a.IsFloat) (hb : b.IsFloat) : binIE F .sub b a = unRV .neg (binIE F .sub a b) := by
  cases ha with
  | f x =>
    cases hb with
    | f y => show F.rne (y + -x) = unRV .neg (F.rne (x + -y)); rw [← FloatFmt.rne_neg]; congr 1; ring
    | inf s => cases s <;> rfl
    | nan => rfl
  | inf s =>
    cases hb with
    | f y => rfl
    | inf t => cases s <;> cases t <;> rfl
    | nan => rfl
  | nan => cases hb <;> rfl

/-- **C108** `sinh` of the library is exactly odd. -/
theorem C108_sinh (h : LibraryOk ext fx b32 P calls g u w) {a : RV} (ha : a.IsFloat) : calls "sinh" [unRV .neg a] = unRV .neg (calls "sinh" [a]) := by
  obtain ⟨c, hc, -⟩ := h.log2_e
  have key : ∀ x, calls "sinh" [x] = binIE (fmtOf b32) .sub (calls "exp2" [methIE (fmtOf b32) "mul_add" x [.f c, .f (-1)]]) (calls "exp2" [methIE (fmtOf b32) "mul_add" x [.f (-c), .f (-1)]]) := by
    intro x
    rw [show calls "sinh" [x] = _ from h.fn "sinh" (by decide +kernel) rfl [x]]
    simp only [Gen.sinh, Gen.hypLets, ofFty_apply, List.map, bindParams, List.cons_append, List.nil_append]
    simp [hc, numIE_1 (FloatFmt.wide_fmtOf b32)]
  have h1 := h.exp2_isFloat (mul_addIE_isFloat (F := fmtOf b32) ha (.f c) (.f (-1)))
  have h2 := h.exp2_isFloat (mul_addIE_isFloat (F := fmtOf b32) ha (.f (-c)) (.f (-1)))
  rw [key, key, mul_addIE_neg ha, mul_addIE_neg ha, neg_neg]
  exact subIE_swap h1 h2

/-- **C108** `cosh` of the library is exactly even. -/
theorem C108_cosh (h : LibraryOk ext fx b32 P calls g u w) {a : RV} (ha : a.IsFloat) : calls "cosh" [unRV .neg a] = calls "cosh" [a] := by
  obtain ⟨c, hc, -⟩ := h.log2_e
  have key : ∀ x, calls "cosh" [x] = binIE (fmtOf b32) .add (calls "exp2" [methIE (fmtOf b32) "mul_add" x [.f c, .f (-1)]]) (calls "exp2" [methIE (fmtOf b32) "mul_add" x [.f (-c), .f (-1)]]) := by
    intro x
    rw [show calls "cosh" [x] = _ from h.fn "cosh" (by decide +kernel) rfl [x]]
    simp only [Gen.cosh, Gen.hypLets, ofFty_apply, List.map, bindParams, List.cons_append, List.nil_append]
    simp [hc, numIE_1 (FloatFmt.wide_fmtOf b32)]
  have h1 := h.exp2_isFloat (mul_addIE_isFloat (F := fmtOf b32) ha (.f c) (.f (-1)))
  have h2 := h.exp2_isFloat (mul_addIE_isFloat (F := fmtOf b32) ha (.f (-c)) (.f (-1)))
  rw [key, key, mul_addIE_neg ha, mul_addIE_neg ha, neg_neg]
  generalize calls "exp2" [methIE (fmtOf b32) "mul_add" a [.f c, .f (-1)]] = p at h1 ⊢
  generalize calls "exp2" [methIE (fmtOf b32) "mul_add" a [.f (-c), .f (-1)]] = q at h2 ⊢
  cases h1 with
  | f x =>
    cases h2 with
    | f y => show (fmtOf b32).rne (y + x) = (fmtOf b32).rne (x + y); rw [add_comm]
    | inf s => rfl
    | nan => rfl
  | inf s =>
    cases h2 with
    | f y => rfl
    | inf t => cases s <;> cases t <;> rfl
    | nan => rfl
  | nan => cases h2 <;> rfl

/-- **C108** `tanh` of the library is not odd: at infinity it is NaN, at minus infinity it is not. -/
theorem C108_tanh_wrong (h : LibraryOk ext fx b32 P calls g u w) : calls "tanh" [.inf false] = .nan ∧ calls "tanh" [unRV .neg (.inf false)] = .f (-1) := by
  have hF := FloatFmt.wide_fmtOf b32
  obtain ⟨c, hc, -, -, hc1, hc2⟩ := h.log2_e
  have hr : (1 : ℝ) ≤ (fmtOf b32).rnd (c * 2) := FloatFmt.le_rnd (repr_one b32) (by linarith)
  have hm : binIE (fmtOf b32) .mul (.f c) (.f 2) = .f ((fmtOf b32).rnd (c * 2)) := rne_small (by rw [abs_of_nonneg (by linarith)]; linarith)
  have h1 : (fmtOf b32).rne (-1) = .f (-1) := by
    rw [FloatFmt.rne_neg, rne_small (by norm_num), FloatFmt.rnd_of_repr (repr_one b32)]; rfl
  have h1' : (fmtOf b32).rne 1 = .f 1 := by
    rw [rne_small (by norm_num), FloatFmt.rnd_of_repr (repr_one b32)]
  have key : ∀ s, calls "tanh" [.inf s] = binIE (fmtOf b32) .div (binIE (fmtOf b32) .sub (if s then .f 0 else .inf false) (.f 1)) (binIE (fmtOf b32) .add (if s then .f 0 else .inf false) (.f 1)) := by
    intro s
    rw [show calls "tanh" [.inf s] = _ from h.fn "tanh" (by decide +kernel) rfl [.inf s]]
    simp only [Gen.tanh, ofFty_apply, List.map, bindParams]
    simp [hc, numIE_1 hF, numIE_2]
    rw [show (fmtOf b32).rne (c * 2) = _ from hm, mulIE_inf_pos (fmtOf b32) (by linarith : (0 : ℝ) < (fmtOf b32).rnd (c * 2)) s, h.exp2.inf s]
  refine ⟨(key false).trans rfl, (key true).trans ?_⟩
  simp only [if_true]
  rw [show binIE (fmtOf b32) .sub (.f 0) (.f 1) = (fmtOf b32).rne (0 + -1) from rfl, show binIE (fmtOf b32) .add (.f 0) (.f 1) = (fmtOf b32).rne (0 + 1) from rfl, zero_add, zero_add, h1, h1']
  show (if (1 : ℝ) = 0 then _ else (fmtOf b32).rne (-1 / 1)) = _
  rw [if_neg one_ne_zero, div_one, h1]

/-- **C108** `asinh` of the library is not odd. -/
theorem C108_asinh_wrong (h : LibraryOk ext fx b32 P calls g u w) : calls "asinh" [.f (-2 ^ 30)] = .inf true ∧ ∃ y, calls "asinh" [.f (2 ^ 30)] = .f y := by
  have hr := repr_two_pow b32 30
  have hb : (2 : ℝ) ^ ((fmtOf b32).mant + 2) ≤ (2 ^ 30) ^ 2 ∧ ((2 : ℝ) ^ 30) ^ 2 ≤ 2 ^ ((fmtOf b32).bias - 1) := by
    rw [← pow_mul]
    exact ⟨pow_le_pow_right₀ (by norm_num) (by cases b32 <;> decide), pow_le_pow_right₀ (by norm_num) (by cases b32 <;> decide)⟩
  refine ⟨C76_asinh_wrong h hr.neg (by norm_num) (by rw [neg_sq]; exact hb.1) (by rw [neg_sq]; exact hb.2), ?_⟩
  obtain ⟨y, hy, -⟩ := C76_asinh_partial h (by positivity : (0 : ℝ) ≤ 2 ^ 30) hb.2
  exact ⟨y, hy⟩

/-- **C108** `atanh` of the library is exactly odd. -/
theorem C108_atanh (h : LibraryOk ext fx b32 P calls g u w) {a : RV} (ha : a.IsFloat) : calls "atanh" [unRV .neg a] = unRV .neg (calls "atanh" [a]) := by
  have hln : ∀ x : ℝ, (calls "ln" [(fmtOf b32).rne x]).IsFloat := by
    intro x
    have hpi := Real.log_two_gt_d9
    obtain ⟨c, hc⟩ : ∃ c, g ["RECIP_LOG2_E"] = .f c := by
      obtain ⟨c, hc, -⟩ := h.const_pos (name := "RECIP_LOG2_E") (m := Real.log 2) (by rw [← show 1 / Real.logb 2 (Real.exp 1) = Real.log 2 by rw [logb_exp_one, one_div_one_div]]; simp [constMeaning]) (by norm_num at hpi; linarith) (by have := Real.log_two_lt_d9; norm_num at this; linarith)
      exact ⟨c, hc⟩
    have hl2 : (calls "log2" [(fmtOf b32).rne x]).IsFloat := by
      refine h.log2_isFloat (fun a hxa => ?_) (FloatFmt.rne_isFloat _)
      unfold FloatFmt.rne at hxa
      split_ifs at hxa with hlt
      cases hxa
      exact ⟨FloatFmt.rnd_repr _, (le_abs_self _).trans_lt hlt⟩
    rw [show calls "ln" [(fmtOf b32).rne x] = _ from h.fn "ln" (by decide +kernel) rfl [_]]
    simp only [Gen.ln, ofFty_apply, List.map, bindParams]
    simp [hc]
    exact mulIE_isFloat hl2 (.f c)
  cases ha with
  | f x =>
    show calls "atanh" [.f (-x)] = _
    rw [h.atanh_run, h.atanh_run]
    show binIE _ .mul (binIE _ .sub (calls "ln" [(fmtOf b32).rne (1 + -x)]) (calls "ln" [(fmtOf b32).rne (1 + - -x)])) _ =
      unRV .neg (binIE _ .mul (binIE _ .sub (calls "ln" [(fmtOf b32).rne (1 + x)]) (calls "ln" [(fmtOf b32).rne (1 + -x)])) _)
    rw [neg_neg, subIE_swap (hln (1 + x)) (hln (1 + -x)), neg_mulIE (subIE_isFloat (hln _) (hln _)) (.f _)]
  | inf s => show calls "atanh" [.inf !s] = _; rw [C88_atanh h, C88_atanh h]; rfl
  | nan => show calls "atanh" [.nan] = _; rw [C88_atanh_wrong h]; simp [unRV]

/-! ## `atan` -/

theorem atan_code_odd (h : IeeeOk fx b32 u w) (hs : SqrtOk ext) (hf : 3 ≤ ext.fuel) {e : Expr} (he : polynomialCode ext fx b32 .atan ⟨-1, 0⟩ ⟨1, 0⟩ = .ok e) (calls : String → List RV → RV) :
    OddIE (ieeeInterp (fmtOf b32) calls) "x" e.toR := by
  cases b32 with
  | true => exact (h.polynomialCode_parity .atan rfl (by decide) (atan_sharp_16 ext hs hf).1 (22 / 10) one_val.1 one_val.2 (by norm_num) (by norm_num) (atan_sharp_16 ext hs hf).2 (by positivity) (by norm_num) (by norm_num) he calls).1 rfl
  | false => exact (h.polynomialCode_parity .atan rfl (by decide) (atan_sharp_36 ext hs hf).1 (242 / 100) one_val.1 one_val.2 (by norm_num) (by norm_num) (atan_sharp_36 ext hs hf).2 (by positivity) (by norm_num) (by norm_num) he calls).1 rfl

/-- **C108** `atan` of the library is exactly odd. -/
theorem C108_atan (h : LibraryOk ext fx b32 P calls g u w) {a : RV} (ha : a.IsFloat) : calls "atan" [unRV .neg a] = unRV .neg (calls "atan" [a]) := by
  have hF := FloatFmt.wide_fmtOf b32
  have hfu : 3 ≤ ext.fuel := by have := h.fuel; omega
  obtain ⟨e, h1, h2⟩ := atan_code_ieee (ext := ext) h.lits h.hu h.hw h.sqrt hfu
  have hap := h.approx .atan (by simp [approxSpecs]) _ _ e rfl h1
  have hl : LinkedIE (fmtOf b32) calls g (Gen.atan e.toR) := h.fn "atan" (by decide +kernel) (by rw [← hap]; rfl)
  have hodd := atan_code_odd h.lits h.sqrt hfu h1 calls
  have hfl := (h2 calls).2.float
  obtain ⟨c, hc, -⟩ := h.consts.half_pi h.sqrt h.fuel
  have fin : ∀ (d : ℝ) (env env' : Name → RV), (env ["x"]).IsFloat → env' ["x"] = unRV .neg (env ["x"]) →
      binIE (fmtOf b32) .sub (.f (-d)) (e.toR.denote (ieeeInterp (fmtOf b32) calls) env') = unRV .neg (binIE (fmtOf b32) .sub (.f d) (e.toR.denote (ieeeInterp (fmtOf b32) calls) env)) := by
    intro d env env' k1 k2
    rw [hodd env env' k1 k2]
    exact subIE_neg (.f d) (hfl env k1)
  rw [show calls "atan" [unRV .neg a] = _ from hl _, show calls "atan" [a] = _ from hl _]
  cases ha with
  | f x =>
    simp only [unRV, Gen.atan, ofFty_apply, List.map, bindParams]
    by_cases hx : |x| < 1
    · simp [hc, numIE_0 hF, numIE_1 hF, hx]
      refine hodd _ _ ?_ ?_
      · simp; exact .f _
      · simp [unRV]
    · have hx0 : x ≠ 0 := by rintro rfl; simp at hx
      have hd : binIE (fmtOf b32) .div (.f 1) (.f (-x)) = unRV .neg (binIE (fmtOf b32) .div (.f 1) (.f x)) := by
        simp only [binIE, divIE, neg_eq_zero, if_neg hx0]
        rw [← FloatFmt.rne_neg]; congr 1; ring
      have hdf : (binIE (fmtOf b32) .div (.f 1) (.f x)).IsFloat := divIE_isFloat (.f 1) (.f x)
      have hdm : ∀ y : ℝ, methIE (fmtOf b32) "recip" (.f y) [] = binIE (fmtOf b32) .div (.f 1) (.f y) := fun _ => rfl
      rcases lt_or_gt_of_ne hx0 with h0 | h0
      · have hneg := fin (-c)
        rw [neg_neg] at hneg
        simp [hc, numIE_0 hF, numIE_1 hF, hx, h0, not_lt.2 h0.le, hdm, hd]
        exact hneg _ _ (by simpa using hdf) (by simp)
      · simp [hc, numIE_0 hF, numIE_1 hF, hx, h0, not_lt.2 h0.le, hdm, hd]
        exact fin c _ _ (by simpa using hdf) (by simp)
  | inf s =>
    have hneg := fin (-c)
    rw [neg_neg] at hneg
    cases s <;> simp [hc, numIE_0 hF, numIE_1 hF, unRV, Gen.atan, ofFty_apply, List.map, bindParams]
    · exact fin c _ _ (by simpa using RV.IsFloat.f 0) (by simp [unRV])
    · exact hneg _ _ (by simpa using RV.IsFloat.f 0) (by simp [unRV])
  | nan =>
    show RFn.apply _ _ _ [RV.nan] = _
    rw [show RFn.apply (ieeeInterp (fmtOf b32) calls) g (Gen.atan e.toR) [.nan] = .nan from (hl [.nan]).symm.trans (C88_atan h).1]
    rfl

/-! ## `asin` -/

theorem asin_code_odd (h : IeeeOk fx b32 u w) (hs : SqrtOk ext) (hf : 20 ≤ ext.fuel) {e : Expr}
    (he : polynomialCode ext fx b32 .asin ⟨-70710678118654752440, 20⟩ ⟨70710678118654752440, 20⟩ = .ok e) (calls : String → List RV → RV) :
    OddIE (ieeeInterp (fmtOf b32) calls) "x" e.toR := by
  cases b32 with
  | true => exact (h.polynomialCode_parity .asin rfl (N := 15) (by decide) (asin_sharp_16 ext hs (by omega) .asin rfl rfl rfl rfl).1 (85 / 100) asin_val.1 asin_val.2 (by norm_num) (by norm_num) (asin_sharp_16 ext hs (by omega) .asin rfl rfl rfl rfl).2 (by positivity) (by norm_num) (by norm_num) he calls).1 rfl
  | false => exact (h.polynomialCode_parity .asin rfl (N := 35) (by decide) (asin_sharp_36 ext hs (by omega)).1 (85 / 100) asin_val.1 asin_val.2 (by norm_num) (by norm_num) (asin_sharp_36 ext hs (by omega)).2 (by positivity) (by norm_num) (by norm_num) he calls).1 rfl

/-- The limit in the code of `asin`, and its square, are positive floats. -/
theorem lim_pos (b32 : Bool) (calls : String → List RV → RV) : ∃ l k, (∀ env, (num "0.70710678118654752440").denote (ieeeInterp (fmtOf b32) calls) env = .f l) ∧ (fmtOf b32).rne (l * l) = .f k ∧ 0 < k := by
  have h0 : |asinLim| ≤ 1 := by unfold asinLim; rw [abs_of_pos (by positivity)]; norm_num
  have hb : 100 ≤ (fmtOf b32).bias := by cases b32 <;> decide
  have r1 : (fmtOf b32).Repr (2 ^ (-1 : ℤ)) := FloatFmt.repr_zpow (by omega)
  have r2 : (fmtOf b32).Repr (2 ^ (-2 : ℤ)) := FloatFmt.repr_zpow (by omega)
  have h1 : |(fmtOf b32).rnd asinLim| ≤ 1 := FloatFmt.abs_rnd_le (repr_one b32) h0
  have h2 : (2 : ℝ) ^ (-1 : ℤ) ≤ (fmtOf b32).rnd asinLim := FloatFmt.le_rnd r1 (by unfold asinLim; norm_num)
  refine ⟨(fmtOf b32).rnd asinLim, _, fun env => ?_, rne_small ?_, ?_⟩
  · rw [denoteIE_num (d := ⟨70710678118654752440, 20⟩) _ _ _ rfl, asin_val.2]
    exact rne_small (h0.trans (by norm_num))
  · rw [abs_mul]
    have := mul_le_mul h1 h1 (abs_nonneg _) (by norm_num)
    exact this.trans (by norm_num)
  · have : (2 : ℝ) ^ (-2 : ℤ) ≤ _ := FloatFmt.le_rnd r2 (x := (fmtOf b32).rnd asinLim * (fmtOf b32).rnd asinLim) (by norm_num at h2 ⊢; nlinarith)
    refine lt_of_lt_of_le (by positivity) this

theorem neg_negIE {a : RV} (ha : a.IsFloat) : unRV .neg (unRV .neg a) = a := by
  cases ha <;> simp [unRV]

/-- **C108** `asin` of the library is exactly odd. -/
theorem C108_asin (h : LibraryOk ext fx b32 P calls g u w) {a : RV} (ha : a.IsFloat) : calls "asin" [unRV .neg a] = unRV .neg (calls "asin" [a]) := by
  have hF := FloatFmt.wide_fmtOf b32
  obtain ⟨e, h1, h2⟩ := asin_code_ieee (ext := ext) h.sqrt h.fuel h.lits h.hu h.hw
  have hap := h.approx .asin (by simp [approxSpecs]) _ _ e rfl h1
  have hl : LinkedIE (fmtOf b32) calls g (Gen.asin e.toR) := h.fn "asin" (by decide +kernel) (by rw [← hap]; rfl)
  have hodd := asin_code_odd h.lits h.sqrt h.fuel h1 calls
  have hfl := (h2 calls).2.float
  obtain ⟨c, hc, -⟩ := h.consts.half_pi h.sqrt h.fuel
  obtain ⟨l, k, hl', hk, hk0⟩ := lim_pos b32 calls
  have fin : ∀ (d σ : ℝ) (env env' : Name → RV), (env ["x"]).IsFloat → env' ["x"] = env ["x"] →
      binIE (fmtOf b32) .sub (.f (-d)) (binIE (fmtOf b32) .mul (e.toR.denote (ieeeInterp (fmtOf b32) calls) env') (.f (-σ))) =
        unRV .neg (binIE (fmtOf b32) .sub (.f d) (binIE (fmtOf b32) .mul (e.toR.denote (ieeeInterp (fmtOf b32) calls) env) (.f σ))) := by
    intro d σ env env' k1 k2
    have e1 := hodd env (fun _ => unRV .neg (env ["x"])) k1 rfl
    have e2 := hodd env' (fun _ => unRV .neg (env ["x"])) (by rw [k2]; exact k1) (by rw [k2])
    have e3 : e.toR.denote (ieeeInterp (fmtOf b32) calls) env' = e.toR.denote (ieeeInterp (fmtOf b32) calls) env := by
      have e4 := congrArg (unRV .neg) (e2.symm.trans e1)
      rwa [neg_negIE (hfl env' (by rw [k2]; exact k1)), neg_negIE (hfl env k1)] at e4
    have hp := hfl env k1
    rw [e3, ← subIE_neg (.f d) (mulIE_isFloat hp (.f σ)), ← mulIE_neg hp (.f σ)]
    rfl
  cases ha with
  | f x =>
    rw [show calls "asin" [unRV .neg (.f x)] = _ from hl _, show calls "asin" [.f x] = _ from hl _]
    simp only [unRV, Gen.asin, ofFty_apply, List.map, bindParams]
    obtain ⟨t, ht⟩ : ∃ t, binIE (fmtOf b32) .lt ((fmtOf b32).rne (x * x)) (.f k) = .b t := by
      have := FloatFmt.rne_isFloat (F := fmtOf b32) (x * x)
      generalize (fmtOf b32).rne (x * x) = q at this
      cases this with
      | f y => exact ⟨_, rfl⟩
      | inf s => cases s <;> exact ⟨_, rfl⟩
      | nan => exact ⟨_, rfl⟩
    cases t with
    | true =>
      simp [hc, hl', hk, numIE_0 hF, numIE_1 hF, Gen.insideLim, Gen.edgeArg, ht]
      exact hodd _ _ (by simpa using RV.IsFloat.f x) (by simp [unRV])
    | false =>
      have hx0 : x ≠ 0 := by
        rintro rfl
        rw [mul_zero, rne_zero b32] at ht
        simp [hk0] at ht
      have hq : (methIE (fmtOf b32) "sqrt" (binIE (fmtOf b32) .sub (.f 1) ((fmtOf b32).rne (x * x))) []).IsFloat := by
        have hv := subIE_isFloat (F := fmtOf b32) (.f 1) (FloatFmt.rne_isFloat (F := fmtOf b32) (x * x))
        generalize binIE (fmtOf b32) .sub (.f 1) ((fmtOf b32).rne (x * x)) = q at hv ⊢
        cases hv with
        | f y =>
          show (if y < 0 then RV.nan else (fmtOf b32).rne (Real.sqrt y)).IsFloat
          split_ifs
          · exact .nan
          · exact FloatFmt.rne_isFloat _
        | inf s => cases s <;> constructor
        | nan => exact .nan
      rcases lt_or_gt_of_ne hx0 with h0 | h0
      · have hneg := fin (-c) (-1)
        rw [neg_neg, neg_neg] at hneg
        simp [hc, hl', hk, numIE_0 hF, numIE_1 hF, Gen.insideLim, Gen.edgeArg, ht, h0, not_lt.2 h0.le]
        exact hneg _ _ (by simpa using hq) (by simp)
      · simp [hc, hl', hk, numIE_0 hF, numIE_1 hF, Gen.insideLim, Gen.edgeArg, ht, h0, not_lt.2 h0.le]
        exact fin c 1 _ _ (by simpa using hq) (by simp)
  | inf s => show calls "asin" [.inf !s] = _; rw [(C88_asin h).2, (C88_asin h).2]; rfl
  | nan => show calls "asin" [.nan] = _; rw [(C88_asin h).1]; rfl

/-- A library of the shipped functions: the symmetries hold at an argument far outside the range where the reduction is accurate. -/
example (b32 : Bool) : ∃ calls, LibraryOk goodExt wideFx b32 (shippedParts goodExt wideFx b32 fun _ => RExpr.num "3.14") calls (bitsIE b32) (fmtOf b32).eps ((fmtOf b32).eps * (fmtOf b32).tiny) ∧
    calls "sin" [.f (-2 ^ 100)] = unRV .neg (calls "sin" [.f (2 ^ 100)]) ∧ calls "cos" [.f (-3)] = calls "cos" [.f 3] ∧ calls "tan" [.inf true] = unRV .neg (calls "tan" [.inf false]) ∧
    calls "sinh" [.f (-3)] = unRV .neg (calls "sinh" [.f 3]) ∧ calls "cosh" [.f (-3)] = calls "cosh" [.f 3] ∧
    calls "atan" [.f (-3)] = unRV .neg (calls "atan" [.f 3]) ∧ calls "asin" [.f (-(3 / 4))] = unRV .neg (calls "asin" [.f (3 / 4)]) ∧
    calls "atanh" [.f (-(3 / 4))] = unRV .neg (calls "atanh" [.f (3 / 4)]) ∧ calls "asinh" [.f (-2 ^ 30)] ≠ unRV .neg (calls "asinh" [.f (2 ^ 30)]) ∧
    calls "tanh" [unRV .neg (.inf false)] ≠ unRV .neg (calls "tanh" [.inf false]) := by
  obtain ⟨calls, h⟩ := libraryOk_exists b32
  refine ⟨calls, h, C108_sin h (.f _), C108_cos h (.f _), C108_tan h (.inf false), C108_sinh h (.f _), C108_cosh h (.f _), C108_atan h (.f _), C108_asin h (.f _), C108_atanh h (.f _), ?_, ?_⟩
  · obtain ⟨h1, y, h2⟩ := C108_asinh_wrong h
    rw [h1, h2]; simp [unRV]
  · rw [(C108_tanh_wrong h).1, (C108_tanh_wrong h).2]; simp [unRV]
end
end Verif

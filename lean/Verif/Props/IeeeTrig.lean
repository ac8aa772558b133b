import Verif.Props.Ieee

/-!
# C83 for `sin`, `cos` and `tan`

The generated functions, their polynomials and their constants with every operation rounded.
-/

namespace Verif
open RExpr Dec

section
variable {ext : BdExt} {fx : FloatExt} {b32 : Bool} {u w : ℝ}

/-- `g` holds the constants of the generated code, rounded to floats. -/
def DeclaredIE (ext : BdExt) (b32 : Bool) (calls : String → List RV → RV) (g : Name → RV) : Prop :=
  ∀ p ∈ constSource, ∃ l, eval ext (configDigits b32) p.2 = .ok (.lit l) ∧ g [p.1] = (RExpr.lit l).denote (ieeeInterp (fmtOf b32) calls) g

/-- Each declared constant is the float nearest to a number close to its meaning. -/
theorem DeclaredIE.get {calls : String → List RV → RV} {g : Name → RV} (h : DeclaredIE ext b32 calls g)
    (hs : SqrtOk ext) (hf : 20 ≤ ext.fuel) {name : String} {m : ℝ} (hm : (name, m) ∈ constMeaning) (hm4 : |m| ≤ 4) :
    ∃ c, g [name] = .f c ∧ (fmtOf b32).Repr c ∧ |c - m| ≤ constErr b32 + (fmtOf b32).eps * (|m| + 1 / 2 ^ 60) := by
  obtain ⟨p, hp, h1, l, y, h2, h3, h4⟩ := forall2_get (C69_constants_in_code hs hf b32 (fmtOf b32) calls g) hm
  obtain ⟨l', h5, h6⟩ := h p hp
  rw [h2] at h5
  cases h5
  simp only at h1
  subst h1
  have hF := FloatFmt.wide_fmtOf b32
  have hκ := constErr_le b32
  have hy : |y| ≤ |m| + constErr b32 := by
    have := abs_sub_abs_le_abs_sub y m
    unfold constErr; simp only at h4; linarith
  have hl : litRV l = .f y := h3
  have hr : g [p.1] = (fmtOf b32).rne y := by rw [h6]; simp [RExpr.denote, ieeeInterp, litIE, hl]
  rw [FloatFmt.rne_f hF.ok (by
    have := (FloatFmt.bias_pow_ge hF).1
    norm_num at this hκ ⊢; linarith)] at hr
  refine ⟨_, hr, FloatFmt.rnd_repr y, ?_⟩
  have he := FloatFmt.rnd_err (F := fmtOf b32) y
  have ht := FloatFmt.tiny_fmtOf b32
  have h7 : (fmtOf b32).eps * (|y| + (fmtOf b32).tiny) ≤ (fmtOf b32).eps * (|m| + 1 / 2 ^ 60) :=
    mul_le_mul_of_nonneg_left (by norm_num at ht hκ ⊢; linarith) FloatFmt.eps_pos.le
  have h8 := abs_sub_le ((fmtOf b32).rnd y) y m
  unfold constErr; simp only at h4; linarith

/-! ## `sin` and `cos` -/

/-- Rounding in the 11 or 23 steps of the polynomial, in units of the float precision. -/
noncomputable def sinOps (b32 : Bool) : ℝ := if b32 then 132 else 274
noncomputable def cosOps (b32 : Bool) : ℝ := if b32 then 144 else 286

theorem sin_code_ieee (h : IeeeOk fx b32 u w) (hu : u ≤ 1 / 1000) (hw : w ≤ 1 / 1000) : ∃ e, polynomialCode ext fx b32 .sin ⟨-5, 1⟩ ⟨5, 1⟩ = .ok e ∧
    ∀ calls, ApproxIE (ieeeInterp (fmtOf b32) calls) "x" e.toR (fun x => Real.sin (2 * Real.pi * x)) (Set.Icc (-(1 / 2)) (1 / 2))
      (sinErr b32 + 12 * u + 24 * w + sinOps b32 * (fmtOf b32).eps) := by
  have hn := h.nonneg
  have hε := FloatFmt.eps_pos (F := fmtOf b32)
  cases b32 with
  | true =>
    obtain ⟨e, h1, h2⟩ := h.polynomialCode_within_ieee (ext := ext) hu hw .sin rfl (by norm_num) (by decide) (sin_sharp_12 ext).1 (A' := 116 / 10)
      (T := 1177 / 100) half_val.1 half_val.2 (by norm_num) (by norm_num) (sin_sharp_12 ext).2 (by positivity) (by norm_num) (by norm_num) (by norm_num) (by norm_num) (by norm_num)
    refine ⟨e, h1, fun calls => (h2 calls).mono le_rfl ?_⟩
    simp only [sinErr, sinOps, if_true, if_false, Bool.false_eq_true]
    push_cast
    linarith
  | false =>
    obtain ⟨e, h1, h2⟩ := h.polynomialCode_within_ieee (ext := ext) hu hw .sin rfl (by norm_num) (by decide) (sin_sharp_24 ext).1 (A' := 116 / 10)
      (T := 1177 / 100) half_val.1 half_val.2 (by norm_num) (by norm_num) (sin_sharp_24 ext).2 (by positivity) (by norm_num) (by norm_num) (by norm_num) (by norm_num) (by norm_num)
    refine ⟨e, h1, fun calls => (h2 calls).mono le_rfl ?_⟩
    simp only [sinErr, sinOps, if_true, if_false, Bool.false_eq_true]
    push_cast
    linarith

theorem cos_code_ieee (h : IeeeOk fx b32 u w) (hu : u ≤ 1 / 1000) (hw : w ≤ 1 / 1000) : ∃ e, polynomialCode ext fx b32 .cos ⟨-5, 1⟩ ⟨5, 1⟩ = .ok e ∧
    ∀ calls, ApproxIE (ieeeInterp (fmtOf b32) calls) "x" e.toR (fun x => Real.cos (2 * Real.pi * x)) (Set.Icc (-(1 / 2)) (1 / 2))
      (cosErr b32 + 12 * u + 25 * w + cosOps b32 * (fmtOf b32).eps) := by
  have hn := h.nonneg
  have hε := FloatFmt.eps_pos (F := fmtOf b32)
  cases b32 with
  | true =>
    obtain ⟨e, h1, h2⟩ := h.polynomialCode_within_ieee (ext := ext) hu hw .cos rfl (by norm_num) (by decide) (cos_sharp_13 ext).1 (A' := 116 / 10)
      (T := 1177 / 100) half_val.1 half_val.2 (by norm_num) (by norm_num) (cos_sharp_13 ext).2 (by positivity) (by norm_num) (by norm_num) (by norm_num) (by norm_num) (by norm_num)
    refine ⟨e, h1, fun calls => (h2 calls).mono le_rfl ?_⟩
    simp only [cosErr, cosOps, if_true, if_false, Bool.false_eq_true]
    push_cast
    linarith
  | false =>
    obtain ⟨e, h1, h2⟩ := h.polynomialCode_within_ieee (ext := ext) hu hw .cos rfl (by norm_num) (by decide) (cos_sharp_25 ext).1 (A' := 116 / 10)
      (T := 1177 / 100) half_val.1 half_val.2 (by norm_num) (by norm_num) (cos_sharp_25 ext).2 (by positivity) (by norm_num) (by norm_num) (by norm_num) (by norm_num) (by norm_num)
    refine ⟨e, h1, fun calls => (h2 calls).mono le_rfl ?_⟩
    simp only [cosErr, cosOps, if_true, if_false, Bool.false_eq_true]
    push_cast
    linarith

/-- The reduction to a fraction of a period in float arithmetic. -/
theorem reduce_ieee {F : FloatFmt} (hF : F.Wide) {calls : String → List RV → RV} {g : Name → RV} (hl : LinkedIE F calls g Gen.round) {z : ℝ}
    (hz : |z| ≤ 9 / 10 * 2 ^ F.mant) :
    ∃ (n : ℤ) (d : ℝ), F.rne z = .f (F.rnd z) ∧ calls "round" [.f (F.rnd z)] = .f n ∧ F.rne (F.rnd z - n) = .f d ∧ |d| ≤ 1 / 2 ∧
      |d - (z - n)| ≤ F.eps * |z| + F.eps := by
  have hε := FloatFmt.eps_pos (F := F)
  have he := FloatFmt.eps_le hF
  have ht := FloatFmt.tiny_le hF
  have hb := (FloatFmt.bias_pow_ge hF).2
  have hm2 : (2 : ℝ) ^ 20 ≤ 2 ^ F.mant := pow_le_pow_right₀ (by norm_num) hF.mant
  have h7 : (2 : ℝ) ^ (F.mant + 9) = 512 * 2 ^ F.mant := by rw [pow_add]; ring
  have hr := FloatFmt.rnd_err (F := F) z
  have hlt : |F.rnd z| < 2 ^ F.mant := by
    have h1 := abs_sub_abs_le_abs_sub (F.rnd z) z
    have h2 : F.eps * (|z| + F.tiny) ≤ 1 / 2 ^ 21 * (|z| + 1 / 2 ^ 28) :=
      mul_le_mul he (by linarith) (by have := FloatFmt.tiny_pos (F := F); positivity) (by positivity)
    norm_num at *; linarith
  obtain ⟨n, hn, hd1, hd2, -, hnb⟩ := round_ieee (calls := calls) (g := g) hF (FloatFmt.rnd_repr z) hlt
  have hcall : calls "round" [.f (F.rnd z)] = .f n := by rw [← hn]; exact hl _
  have hsub : |F.rnd z - n| ≤ 2 ^ F.bias := by
    have := abs_sub (F.rnd z) n
    norm_num at *; linarith
  refine ⟨n, F.rnd (F.rnd z - n), FloatFmt.rne_f hF.ok (by norm_num at *; linarith), hcall, FloatFmt.rne_f hF.ok hsub, hd1, ?_⟩
  have h3 := abs_add_le (F.rnd (F.rnd z - n) - (F.rnd z - n)) (F.rnd z - z)
  rw [show F.rnd (F.rnd z - n) - (F.rnd z - n) + (F.rnd z - z) = F.rnd (F.rnd z - n) - (z - n) by ring] at h3
  have h4 : F.eps * (|z| + F.tiny) ≤ F.eps * (|z| + 1 / 2) := by
    gcongr; norm_num at ht ⊢; linarith
  linarith

/-- `sin` and `cos` up to the polynomial. -/
theorem sinLike_ieee {F : FloatFmt} (hF : F.Wide) {calls : String → List RV → RV} {g : Name → RV} (hl : LinkedIE F calls g Gen.round) {c : ℝ} (hc : g ["RECIP_2PI"] = .f c)
    (name : String) {p : RExpr} {f : ℝ → ℝ} {ε : ℝ} (hp : Approximates (ieeeInterp F calls) "x" p f (Set.Icc (-(1 / 2)) (1 / 2)) ε) (a : ℝ)
    (ha : |a * c| ≤ 9 / 10 * 2 ^ F.mant) :
    ∃ (n : ℤ) (d y : ℝ), (Gen.sinLike name p).apply (ieeeInterp F calls) g [.f a] = .f y ∧ |d - (a * c - n)| ≤ F.eps * |a * c| + F.eps ∧ |y - f d| ≤ ε := by
  obtain ⟨n, d, h1, h2, h3, h4, h5⟩ := reduce_ieee hF hl ha
  obtain ⟨P, hP, hPe⟩ := hp
  have hm : d ∈ Set.Icc (-(1 / 2) : ℝ) (1 / 2) := by simpa using abs_le.1 h4
  refine ⟨n, d, P d, ?_, h5, hPe _ hm⟩
  simp only [Gen.sinLike, ofFty_apply, List.map, bindParams]
  simp [hc, h1, h2, h3]
  exact hP _ _ (by simp) hm

/-- The turn constant as a float. -/
theorem DeclaredIE.turns {calls : String → List RV → RV} {g : Name → RV} (h : DeclaredIE ext b32 calls g) (hs : SqrtOk ext) (hf : 20 ≤ ext.fuel) :
    ∃ c, g ["RECIP_2PI"] = .f c ∧ |2 * Real.pi * c - 1| ≤ 7 * constErr b32 + 119 / 100 * (fmtOf b32).eps ∧ |c| ≤ 1 / 5 := by
  have hpi := Real.pi_gt_three
  have h1 : (1 : ℝ) / (2 * Real.pi) ≤ 1 / 6 := one_div_le_one_div_of_le (by norm_num) (by linarith)
  have h0 : (0 : ℝ) < 1 / (2 * Real.pi) := by positivity
  obtain ⟨c, hc, -, hc'⟩ := h.get hs hf (name := "RECIP_2PI") (m := 1 / (2 * Real.pi)) (by simp [constMeaning]) (by rw [abs_of_pos h0]; linarith)
  rw [abs_of_pos h0] at hc'
  have hε := FloatFmt.eps_pos (F := fmtOf b32)
  have he := FloatFmt.eps_le (FloatFmt.wide_fmtOf b32)
  have hκ := constErr_le b32
  have h2 : |c - 1 / (2 * Real.pi)| ≤ constErr b32 + (fmtOf b32).eps * (17 / 100) := hc'.trans (by
    have : (1 : ℝ) / 2 ^ 60 ≤ 1 / 1000 := by norm_num
    gcongr; linarith)
  refine ⟨c, hc, (turns_const h2).trans (by linarith), ?_⟩
  have h3 := abs_le.1 h2
  rw [abs_le]
  norm_num at he hκ
  constructor <;> linarith

theorem turns_ieee {c a d κ ε : ℝ} {n : ℤ} (hε : 0 ≤ ε) (hε1 : ε ≤ 1 / 100) (hc : |2 * Real.pi * c - 1| ≤ κ + 119 / 100 * ε) (hκ0 : 0 ≤ κ) (hκ : κ ≤ 1 / 10)
    (hd : |d - (a * c - n)| ≤ ε * |a * c| + ε) :
    |2 * Real.pi * d - (a - n * (2 * Real.pi))| ≤ (κ + 5 / 2 * ε) * |a| + 7 * ε := by
  have hpi := Real.pi_pos
  have hpi2 := Real.pi_lt_d2
  have h1 : 2 * Real.pi * |a * c| ≤ (1 + (κ + 119 / 100 * ε)) * |a| := by
    rw [abs_mul, show 2 * Real.pi * (|a| * |c|) = (2 * Real.pi * |c|) * |a| by ring]
    refine mul_le_mul_of_nonneg_right ?_ (abs_nonneg a)
    have := abs_sub_abs_le_abs_sub (2 * Real.pi * c) 1
    rw [abs_mul, abs_of_pos (by positivity : 0 < 2 * Real.pi), abs_one] at this
    linarith
  have h2 : 2 * Real.pi * d - (a - n * (2 * Real.pi)) = 2 * Real.pi * (d - (a * c - n)) + (2 * Real.pi * c - 1) * a := by ring
  rw [h2]
  refine (abs_add_le _ _).trans ?_
  rw [abs_mul (2 * Real.pi), abs_mul (2 * Real.pi * c - 1), abs_of_pos (by positivity : 0 < 2 * Real.pi)]
  have h3 : 2 * Real.pi * |d - (a * c - n)| ≤ 2 * Real.pi * (ε * |a * c| + ε) := mul_le_mul_of_nonneg_left hd (by positivity)
  have h4 : |2 * Real.pi * c - 1| * |a| ≤ (κ + 119 / 100 * ε) * |a| := mul_le_mul_of_nonneg_right hc (abs_nonneg a)
  have h5 : ε * (2 * Real.pi * |a * c|) ≤ ε * ((1 + (κ + 119 / 100 * ε)) * |a|) := mul_le_mul_of_nonneg_left h1 hε
  have h6 : ε * ((1 + (κ + 119 / 100 * ε)) * |a|) ≤ ε * ((12 / 10) * |a|) :=
    mul_le_mul_of_nonneg_left (mul_le_mul_of_nonneg_right (by linarith) (abs_nonneg a)) hε
  have h7 : 2 * Real.pi * ε ≤ 7 * ε := mul_le_mul_of_nonneg_right (by linarith) hε
  have h8 : 0 ≤ ε * |a| := by positivity
  linarith

theorem turns_range {c a : ℝ} {F : FloatFmt} (hc : |c| ≤ 1 / 5) (ha : |a| ≤ 2 ^ (F.mant + 2)) : |a * c| ≤ 9 / 10 * 2 ^ F.mant := by
  rw [abs_mul]
  have h1 : (2 : ℝ) ^ (F.mant + 2) = 4 * 2 ^ F.mant := by rw [pow_add]; ring
  have h2 : (0 : ℝ) < 2 ^ F.mant := by positivity
  have := mul_le_mul ha hc (abs_nonneg c) (by positivity)
  linarith

/-- **C83** `sin` as the program ships it, in float arithmetic: the error grows with the argument, by a few units in the last place of it. -/
theorem C83_sin (hs : SqrtOk ext) (hf : 20 ≤ ext.fuel) (h : IeeeOk fx b32 u w) (hu : u ≤ 1 / 1000) (hw : w ≤ 1 / 1000) :
    ∃ e, polynomialCode ext fx b32 .sin ⟨-5, 1⟩ ⟨5, 1⟩ = .ok e ∧
    ∀ (calls : String → List RV → RV) (g : Name → RV), LinkedIE (fmtOf b32) calls g Gen.round → DeclaredIE ext b32 calls g →
      ∀ a : ℝ, |a| ≤ 2 ^ ((fmtOf b32).mant + 2) → ∃ y, (Gen.sin e.toR).apply (ieeeInterp (fmtOf b32) calls) g [.f a] = .f y ∧
        |y - Real.sin a| ≤ sinErr b32 + 12 * u + 24 * w + (sinOps b32 + 7) * (fmtOf b32).eps + (7 * constErr b32 + 5 / 2 * (fmtOf b32).eps) * |a| := by
  obtain ⟨e, h1, h2⟩ := sin_code_ieee (ext := ext) h hu hw
  refine ⟨e, h1, fun calls g hl hg a ha => ?_⟩
  obtain ⟨c, hc, hc', hc5⟩ := hg.turns hs hf
  obtain ⟨n, d, y, hy, hd, he⟩ := sinLike_ieee (FloatFmt.wide_fmtOf b32) hl hc "sin" (h2 calls).1 a (turns_range hc5 ha)
  refine ⟨y, hy, ?_⟩
  have hε := FloatFmt.eps_pos (F := fmtOf b32)
  have heps := FloatFmt.eps_le (FloatFmt.wide_fmtOf b32)
  have hκ := constErr_le b32
  have hκ0 := constErr_nonneg b32
  have h3 := turns_ieee hε.le (by norm_num at heps ⊢; linarith) hc' (by positivity) (by norm_num at hκ ⊢; linarith) hd
  have h4 := sin_lipschitz (2 * Real.pi * d) (a - n * (2 * Real.pi))
  rw [Real.sin_sub_int_mul_two_pi] at h4
  have h5 := abs_sub_le y (Real.sin (2 * Real.pi * d)) (Real.sin a)
  linarith

/-- **C83** `cos` as the program ships it, in float arithmetic. -/
theorem C83_cos (hs : SqrtOk ext) (hf : 20 ≤ ext.fuel) (h : IeeeOk fx b32 u w) (hu : u ≤ 1 / 1000) (hw : w ≤ 1 / 1000) :
    ∃ e, polynomialCode ext fx b32 .cos ⟨-5, 1⟩ ⟨5, 1⟩ = .ok e ∧
    ∀ (calls : String → List RV → RV) (g : Name → RV), LinkedIE (fmtOf b32) calls g Gen.round → DeclaredIE ext b32 calls g →
      ∀ a : ℝ, |a| ≤ 2 ^ ((fmtOf b32).mant + 2) → ∃ y, (Gen.cos e.toR).apply (ieeeInterp (fmtOf b32) calls) g [.f a] = .f y ∧
        |y - Real.cos a| ≤ cosErr b32 + 12 * u + 25 * w + (cosOps b32 + 7) * (fmtOf b32).eps + (7 * constErr b32 + 5 / 2 * (fmtOf b32).eps) * |a| := by
  obtain ⟨e, h1, h2⟩ := cos_code_ieee (ext := ext) h hu hw
  refine ⟨e, h1, fun calls g hl hg a ha => ?_⟩
  obtain ⟨c, hc, hc', hc5⟩ := hg.turns hs hf
  obtain ⟨n, d, y, hy, hd, he⟩ := sinLike_ieee (FloatFmt.wide_fmtOf b32) hl hc "cos" (h2 calls).1 a (turns_range hc5 ha)
  refine ⟨y, hy, ?_⟩
  have hε := FloatFmt.eps_pos (F := fmtOf b32)
  have heps := FloatFmt.eps_le (FloatFmt.wide_fmtOf b32)
  have hκ := constErr_le b32
  have hκ0 := constErr_nonneg b32
  have h3 := turns_ieee hε.le (by norm_num at heps ⊢; linarith) hc' (by positivity) (by norm_num at hκ ⊢; linarith) hd
  have h4 := cos_lipschitz (2 * Real.pi * d) (a - n * (2 * Real.pi))
  rw [Real.cos_sub_int_mul_two_pi] at h4
  have h5 := abs_sub_le y (Real.cos (2 * Real.pi * d)) (Real.cos a)
  linarith

/-! ## `tan` -/

noncomputable def tanOps (b32 : Bool) : ℝ := if b32 then 6 else 13

theorem tan_code_ieee (h : IeeeOk fx b32 u w) (hu : u ≤ 1 / 1000) (hw : w ≤ 1 / 1000) : ∃ e, polynomialCode ext fx b32 .tan ⟨-499999, 6⟩ ⟨499999, 6⟩ = .ok e ∧
    ∀ calls, ApproxIE (ieeeInterp (fmtOf b32) calls) "x" e.toR (fun x => Real.tan (Real.pi * x) * (x ^ 2 - 1 / 4)) (Set.Icc (-(499999 / 10 ^ 6)) (499999 / 10 ^ 6))
      (tanErr b32 + u + 24 * w + tanOps b32 * (fmtOf b32).eps) := by
  have hn := h.nonneg
  have hε := FloatFmt.eps_pos (F := fmtOf b32)
  cases b32 with
  | true =>
    obtain ⟨e, h1, h2⟩ := h.polynomialCode_within_ieee (ext := ext) hu hw .tan rfl (by norm_num) (by decide) (tan_sharp_12 ext).1 (A' := 47 / 100)
      (T := 1 / 2) tan_val.1 tan_val.2 (by norm_num) (by norm_num) (tan_sharp_12 ext).2 (by positivity) (by norm_num) (by norm_num) (by norm_num) (by norm_num) (by norm_num)
    refine ⟨e, h1, fun calls => (h2 calls).mono le_rfl ?_⟩
    simp only [tanErr, tanOps, if_true, if_false, Bool.false_eq_true]
    push_cast
    linarith
  | false =>
    obtain ⟨e, h1, h2⟩ := h.polynomialCode_within_ieee (ext := ext) hu hw .tan rfl (by norm_num) (by decide) (tan_sharp_24 ext).1 (A' := 47 / 100)
      (T := 53 / 100) tan_val.1 tan_val.2 (by norm_num) (by norm_num) (tan_sharp_24 ext).2 (by positivity) (by norm_num) (by norm_num) (by norm_num) (by norm_num) (by norm_num)
    refine ⟨e, h1, fun calls => (h2 calls).mono le_rfl ?_⟩
    simp only [tanErr, tanOps, if_true, if_false, Bool.false_eq_true]
    push_cast
    linarith

theorem tan_near_pole {x h : ℝ} (h0 : 0 < h) (hx : |x| ≤ 1 / 2 - h) : |Real.tan (Real.pi * x)| ≤ 1 / (2 * h) := by
  have hpi := Real.pi_pos
  have h1 : 2 * h ≤ Real.cos (Real.pi * x) := by
    rw [← Real.cos_abs, abs_mul, abs_of_pos hpi, ← Real.sin_pi_div_two_sub]
    have h2 := Real.mul_le_sin (x := Real.pi / 2 - Real.pi * |x|) (by nlinarith) (by nlinarith [abs_nonneg x])
    have h3 : 2 / Real.pi * (Real.pi / 2 - Real.pi * |x|) = 1 - 2 * |x| := by field_simp
    linarith
  rw [Real.tan_eq_sin_div_cos, abs_div, abs_of_pos (by linarith : 0 < Real.cos (Real.pi * x))]
  exact div_le_div₀ (by norm_num) (Real.abs_sin_le_one _) (by positivity) h1

/-- The division by the pole in float arithmetic. -/
theorem tan_core {F : FloatFmt} (hF : F.Wide) {d x y E : ℝ} (hd : 10 * F.eps ≤ d) (hx : |x| ≤ 1 / 2 - d) (hE : E ≤ 1 / 2)
    (hy : |y - Real.tan (Real.pi * x) * (x ^ 2 - 1 / 4)| ≤ E) :
    ∃ r z, F.rne (x * x) = .f (F.rnd (x * x)) ∧ F.rne (F.rnd (x * x) - 1 / 4) = .f (F.rnd (F.rnd (x * x) - 1 / 4)) ∧ F.rnd (F.rnd (x * x) - 1 / 4) ≠ 0 ∧
      F.rne (1 / F.rnd (F.rnd (x * x) - 1 / 4)) = .f r ∧ F.rne (y * r) = .f z ∧
      |z - Real.tan (Real.pi * x)| ≤ 5 / 2 * E / d + F.eps * (6 / d + 1 / d ^ 2) := by
  have hε := FloatFmt.eps_pos (F := F)
  have he := FloatFmt.eps_le hF
  have ht := FloatFmt.tiny_le hF
  have ht0 := FloatFmt.tiny_pos (F := F)
  have hb := (FloatFmt.bias_pow_ge hF).1
  have hb2 := (FloatFmt.bias_pow_ge hF).2
  have hx0 := abs_nonneg x
  have hd0 : 0 < d := by linarith
  have hd2 : d ≤ 1 / 2 := by linarith
  have hE0 : 0 ≤ E := (abs_nonneg _).trans hy
  have hxx : x * x = |x| * |x| := (abs_mul_abs_self x).symm
  have hxx0 : 0 ≤ x * x := mul_self_nonneg x
  obtain ⟨t, ht'⟩ : ∃ t, t = Real.tan (Real.pi * x) := ⟨_, rfl⟩
  rw [← ht'] at hy ⊢
  obtain ⟨q, hq⟩ : ∃ q, q = 1 / 4 - x * x := ⟨_, rfl⟩
  have hqd : d / 2 ≤ q := by rw [hq, hxx]; nlinarith
  have htd : |t| ≤ 1 / (2 * d) := by rw [ht']; exact tan_near_pole hd0 hx
  have htq : |t| * q ≤ 1 / 2 := by
    have h1 : 0 < 1 / 2 - |x| := by linarith
    have h2 : |t| ≤ 1 / (2 * (1 / 2 - |x|)) := by rw [ht']; exact tan_near_pole h1 (by linarith)
    have h3 : |t| * (2 * (1 / 2 - |x|)) ≤ 1 := by rwa [le_div_iff₀ (by positivity)] at h2
    have h4 : q = (1 / 2 - |x|) * (1 / 2 + |x|) := by rw [hq, hxx]; ring
    rw [h4]
    nlinarith [abs_nonneg t]
  -- the denominator
  have hxx4 : x * x ≤ 1 / 4 := by linarith
  have e1 := FloatFmt.rnd_err (F := F) (x * x)
  rw [abs_of_nonneg hxx0] at e1
  have e1' : |F.rnd (x * x) - x * x| ≤ F.eps * (26 / 100) := e1.trans (mul_le_mul_of_nonneg_left (by norm_num at ht ⊢; linarith) hε.le)
  obtain ⟨p, hp⟩ : ∃ p, p = F.rnd (x * x) := ⟨_, rfl⟩
  rw [← hp] at e1' ⊢
  have hpa : |p - 1 / 4| ≤ 1 / 4 + F.eps := by
    have h1 := abs_le.1 e1'
    rw [abs_le]; constructor <;> linarith
  have e2 := FloatFmt.rnd_err (F := F) (p - 1 / 4)
  have e2' : |F.rnd (p - 1 / 4) - (p - 1 / 4)| ≤ F.eps * (26 / 100) := e2.trans (mul_le_mul_of_nonneg_left (by norm_num at ht he ⊢; linarith) hε.le)
  obtain ⟨q', hq'⟩ : ∃ q', q' = F.rnd (p - 1 / 4) := ⟨_, rfl⟩
  rw [← hq'] at e2' ⊢
  have hqq : |q' + q| ≤ F.eps * (6 / 10) := by
    have h1 := abs_le.1 e1'
    have h2 := abs_le.1 e2'
    rw [abs_le]; constructor <;> linarith
  have hq'd : q' ≤ -(2 / 5 * d) := by
    have h1 := abs_le.1 hqq
    linarith
  have hq'0 : q' < 0 := by linarith
  -- the reciprocal
  have hs : |1 / q'| ≤ 5 / 2 / d := by
    rw [abs_div, abs_one, abs_of_neg hq'0, div_le_div_iff₀ (by linarith) hd0]
    linarith
  have hεd : 5 / 2 / d ≤ 2 ^ F.bias / 2 := by
    have h2 : (1 : ℝ) / d ≤ 1 / (10 * F.eps) := one_div_le_one_div_of_le (by positivity) hd
    have h3 : 1 / F.eps = 2 ^ (F.mant + 1) := by
      unfold FloatFmt.eps
      rw [one_div, ← zpow_neg, ← zpow_natCast]
      congr 1; push_cast; ring
    have h4 : (1 : ℝ) / (10 * F.eps) = 2 ^ (F.mant + 1) / 10 := by rw [← h3]; field_simp
    rw [h4, pow_succ] at h2
    have h7 : (2 : ℝ) ^ (F.mant + 9) = 512 * 2 ^ F.mant := by rw [pow_add]; ring
    rw [h7] at hb2
    have h8 : 5 / 2 / d = 5 / 2 * (1 / d) := by ring
    have h9 : (0 : ℝ) < 2 ^ F.mant := by positivity
    linarith
  have hbig : (1 : ℝ) ≤ 2 ^ F.bias / 100 := by norm_num at hb ⊢; linarith
  have hb1 : |1 / q'| ≤ 2 ^ F.bias := by linarith
  have e3 := FloatFmt.rnd_err (F := F) (1 / q')
  obtain ⟨r, hr⟩ : ∃ r, r = F.rnd (1 / q') := ⟨_, rfl⟩
  rw [← hr] at e3
  have hd1 : 2 ≤ 1 / d := by rw [le_div_iff₀ hd0]; linarith
  have e3' : |r - 1 / q'| ≤ F.eps * (26 / 10 / d) := e3.trans (mul_le_mul_of_nonneg_left (by
    have : 26 / 10 / d = 5 / 2 / d + 1 / 10 * (1 / d) := by ring
    norm_num at ht; linarith) hε.le)
  have hrb : |r| ≤ 26 / 10 / d := by
    have h1 := abs_sub_abs_le_abs_sub r (1 / q')
    have h2 : F.eps * (26 / 10 / d) ≤ 1 / 1000 * (26 / 10 / d) := mul_le_mul_of_nonneg_right (by norm_num at he ⊢; linarith) (by positivity)
    have h3 : 26 / 10 / d = 26 / 10 * (1 / d) := by ring
    have h4 : 5 / 2 / d = 5 / 2 * (1 / d) := by ring
    linarith
  have hya : |y| ≤ 1 := by
    have h1 := abs_sub_abs_le_abs_sub y (t * (x ^ 2 - 1 / 4))
    have h2 : |t * (x ^ 2 - 1 / 4)| = |t| * q := by
      rw [abs_mul, show x ^ 2 - 1 / 4 = -q by rw [hq]; ring, abs_neg, abs_of_pos (by linarith : 0 < q)]
    rw [h2] at h1
    linarith
  have hyr : |y * r| ≤ 26 / 10 / d := by
    rw [abs_mul]
    calc |y| * |r| ≤ 1 * |r| := mul_le_mul_of_nonneg_right hya (abs_nonneg r)
      _ ≤ _ := by linarith
  have hyrb : |y * r| ≤ 2 ^ F.bias := by
    have h3 : 26 / 10 / d = 26 / 25 * (5 / 2 / d) := by ring
    linarith
  have e4 := FloatFmt.rnd_err (F := F) (y * r)
  have e4' : |F.rnd (y * r) - y * r| ≤ F.eps * (27 / 10 / d) := e4.trans (mul_le_mul_of_nonneg_left (by
    have : 27 / 10 / d = 26 / 10 / d + 1 / 10 * (1 / d) := by ring
    norm_num at ht; linarith) hε.le)
  refine ⟨r, F.rnd (y * r), FloatFmt.rne_f hF.ok ?_ |>.trans (by rw [hp]), FloatFmt.rne_f hF.ok ?_ |>.trans (by rw [hq']), hq'0.ne, by rw [hr]; exact FloatFmt.rne_f hF.ok hb1, FloatFmt.rne_f hF.ok hyrb, ?_⟩
  · rw [abs_of_nonneg hxx0]; linarith
  · norm_num at he; linarith
  have h1 : |y * (1 / q') - t| ≤ 5 / 2 * E / d + F.eps * (3 / 4 / d ^ 2) := by
    have h2 : y * (1 / q') - t = ((y - t * (x ^ 2 - 1 / 4)) - t * (q' + q)) * (1 / q') := by
      have := hq'0.ne
      rw [hq]; field_simp; ring
    rw [h2, abs_mul]
    have h3 : |y - t * (x ^ 2 - 1 / 4) - t * (q' + q)| ≤ E + 1 / (2 * d) * (F.eps * (6 / 10)) := by
      refine (abs_sub _ _).trans (add_le_add hy ?_)
      rw [abs_mul]
      exact mul_le_mul htd hqq (abs_nonneg _) (by positivity)
    calc _ ≤ (E + 1 / (2 * d) * (F.eps * (6 / 10))) * (5 / 2 / d) := mul_le_mul h3 hs (abs_nonneg _) (by positivity)
      _ = _ := by field_simp; ring
  have h2 : |y * r - y * (1 / q')| ≤ F.eps * (26 / 10 / d) := by
    rw [← mul_sub, abs_mul]
    calc |y| * |r - 1 / q'| ≤ 1 * |r - 1 / q'| := mul_le_mul_of_nonneg_right hya (abs_nonneg _)
      _ ≤ _ := by linarith
  have h3 := abs_sub_le (F.rnd (y * r)) (y * r) t
  have h4 := abs_sub_le (y * r) (y * (1 / q')) t
  have h5 : F.eps * (26 / 10 / d) + F.eps * (27 / 10 / d) + F.eps * (3 / 4 / d ^ 2) ≤ F.eps * (6 / d + 1 / d ^ 2) := by
    have h6 : 6 / d + 1 / d ^ 2 - (26 / 10 / d + 27 / 10 / d + 3 / 4 / d ^ 2) = 7 / 10 * (1 / d) + 1 / 4 * (1 / d ^ 2) := by ring
    have h7 : 0 < 7 / 10 * (1 / d) + 1 / 4 * (1 / d ^ 2) := by positivity
    rw [← mul_add, ← mul_add]
    exact mul_le_mul_of_nonneg_left (by linarith) hε.le
  linarith

theorem eps_fmtOf (b32 : Bool) : (fmtOf b32).eps ≤ 1 / 2 ^ 24 := by
  have h : (-((fmtOf b32).mant : ℤ) - 1) ≤ -24 := by cases b32 <;> decide
  calc (fmtOf b32).eps ≤ (2 : ℝ) ^ (-24 : ℤ) := zpow_le_zpow_right₀ (by norm_num) h
    _ = _ := by norm_num

/-- **C83** `tan` as the program ships it, in float arithmetic.  At a distance of at least `d ≥ 10⁻⁶` half turns from the poles the result is within
`5E/2d + (6/d + 1/d²) eps` of the tangent of an argument that is off by a few units in the last place. -/
theorem C83_tan (hs : SqrtOk ext) (hf : 20 ≤ ext.fuel) (h : IeeeOk fx b32 u w) (hu : u ≤ 1 / 1000) (hw : w ≤ 1 / 1000) :
    ∃ e, polynomialCode ext fx b32 .tan ⟨-499999, 6⟩ ⟨499999, 6⟩ = .ok e ∧
    ∀ (calls : String → List RV → RV) (g : Name → RV), LinkedIE (fmtOf b32) calls g Gen.round → DeclaredIE ext b32 calls g →
      ∀ a d : ℝ, |a| ≤ 2 ^ ((fmtOf b32).mant + 1) → 1 / 10 ^ 6 ≤ d →
        (∀ k : ℤ, d + (constErr b32 + 8 / 10 * (fmtOf b32).eps) * |a| + (fmtOf b32).eps ≤ |a / Real.pi - (k + 1 / 2)|) →
        ∃ y a', (Gen.tan e.toR).apply (ieeeInterp (fmtOf b32) calls) g [.f a] = .f y ∧
          |a' - a| ≤ (4 * constErr b32 + 3 * (fmtOf b32).eps) * |a| + 4 * (fmtOf b32).eps ∧
          |y - Real.tan a'| ≤ 5 / 2 * (tanErr b32 + u + 24 * w + tanOps b32 * (fmtOf b32).eps) / d + (fmtOf b32).eps * (6 / d + 1 / d ^ 2) := by
  obtain ⟨e, h1, h2⟩ := tan_code_ieee (ext := ext) h hu hw
  refine ⟨e, h1, fun calls g hl hg a d ha hd hpole => ?_⟩
  have hF := FloatFmt.wide_fmtOf b32
  have hε := FloatFmt.eps_pos (F := fmtOf b32)
  have heps := eps_fmtOf b32
  have hκ := constErr_le b32
  have hκ0 := constErr_nonneg b32
  have hpi := Real.pi_gt_three
  have hd0 : 0 < d := lt_of_lt_of_le (by norm_num) hd
  have hm1 : (1 : ℝ) / Real.pi ≤ 1 / 3 := one_div_le_one_div_of_le (by norm_num) (by linarith)
  have hm0 : (0 : ℝ) < 1 / Real.pi := by positivity
  obtain ⟨c, hc, -, hc'⟩ := hg.get hs hf (name := "RECIP_PI") (m := 1 / Real.pi) (by simp [constMeaning]) (by rw [abs_of_pos hm0]; linarith)
  rw [abs_of_pos hm0] at hc'
  have hc2 : |c - 1 / Real.pi| ≤ constErr b32 + (fmtOf b32).eps * (34 / 100) := hc'.trans (by
    have : (1 : ℝ) / 2 ^ 60 ≤ 1 / 1000 := by norm_num
    gcongr; linarith)
  have hcabs : |c| ≤ 2 / 5 := by
    have h2 := abs_le.1 hc2
    rw [abs_le]
    norm_num at hκ heps
    constructor <;> linarith
  have hac : |a * c| ≤ 2 / 5 * |a| := by
    rw [abs_mul]; nlinarith [abs_nonneg a]
  obtain ⟨n, x, r1, r2, r3, r4, r5⟩ := reduce_ieee hF hl (z := a * c) (by
    rw [pow_succ] at ha
    have h9 : (0 : ℝ) < 2 ^ (fmtOf b32).mant := by positivity
    linarith)
  -- how far the reduced argument is from the fraction of a half turn
  have hoff : |x - (a / Real.pi - n)| ≤ (constErr b32 + 8 / 10 * (fmtOf b32).eps) * |a| + (fmtOf b32).eps := by
    have h3 : x - (a / Real.pi - n) = (x - (a * c - n)) + (c - 1 / Real.pi) * a := by ring
    rw [h3]
    refine (abs_add_le _ _).trans ?_
    rw [abs_mul (c - 1 / Real.pi)]
    have h4 := mul_le_mul_of_nonneg_right hc2 (abs_nonneg a)
    have h5 := mul_le_mul_of_nonneg_left hac hε.le
    have h6 : 0 ≤ (fmtOf b32).eps * |a| := by positivity
    linarith
  have hx : |x| ≤ 1 / 2 - d := by
    have k1 := hpole n
    have k2 := hpole (n - 1)
    have h4 := abs_le.1 hoff
    have h5 := abs_le.1 r4
    have h6 := (abs_sub_abs_le_abs_sub (a / Real.pi - (n + 1 / 2)) (x - 1 / 2)).trans (le_of_eq (by
      rw [show a / Real.pi - (n + 1 / 2) - (x - 1 / 2) = -(x - (a / Real.pi - n)) by ring, abs_neg])) |>.trans hoff
    have h7 := (abs_sub_abs_le_abs_sub (a / Real.pi - (((n - 1 : ℤ) : ℝ) + 1 / 2)) (x + 1 / 2)).trans (le_of_eq (by
      rw [show a / Real.pi - (((n - 1 : ℤ) : ℝ) + 1 / 2) - (x + 1 / 2) = -(x - (a / Real.pi - n)) by push_cast; ring, abs_neg])) |>.trans hoff
    have h8 : d ≤ |x - 1 / 2| := by linarith
    have h9 : d ≤ |x + 1 / 2| := by linarith
    rw [abs_of_nonpos (by linarith)] at h8
    rw [abs_of_nonneg (by linarith)] at h9
    rw [abs_le]; constructor <;> linarith
  have hd2 : d ≤ 1 / 2 := by linarith [abs_nonneg x]
  obtain ⟨P, hP, hPe⟩ := (h2 calls).1
  have hm : x ∈ Set.Icc (-(499999 / 10 ^ 6) : ℝ) (499999 / 10 ^ 6) := by
    have := abs_le.1 hx
    norm_num at hd ⊢
    constructor <;> linarith
  have hE0 : 0 ≤ tanErr b32 + u + 24 * w + tanOps b32 * (fmtOf b32).eps := (abs_nonneg _).trans (hPe x hm)
  have hE : tanErr b32 + u + 24 * w + tanOps b32 * (fmtOf b32).eps ≤ 1 / 2 := by
    have h3 : tanErr b32 ≤ 1 / 10 := by unfold tanErr; split <;> norm_num
    have h4 : tanOps b32 * (fmtOf b32).eps ≤ 13 * (1 / 2 ^ 24) :=
      mul_le_mul (by unfold tanOps; split <;> norm_num) heps hε.le (by norm_num)
    norm_num at h4; linarith
  obtain ⟨r, z, t1, t2, t3, t4, t5, t6⟩ := tan_core hF (by norm_num at heps hd ⊢; linarith) hx hE (hPe x hm)
  refine ⟨z, Real.pi * x + n * Real.pi, ?_, ?_, ?_⟩
  · simp only [Gen.tan, ofFty_apply, List.map, bindParams]
    have hPx : ∀ env : Name → RV, env ["x"] = .f x → e.toR.denote (ieeeInterp (fmtOf b32) calls) env = .f (P x) := fun env hx => hP env x hx hm
    have hone : binIE (fmtOf b32) .div (.f 1) (.f ((fmtOf b32).rnd ((fmtOf b32).rnd (x * x) - 1 / 4))) = .f r := by rw [binIE_div _ t3, t4]
    rw [one_div] at t2 hone
    simp [hc, r1, r2, r3, numIE_1 hF, numIE_quarter hF, t1, t2, hone]
    rw [hPx _ (by simp)]
    simp [t5]
  · have h3 : Real.pi * x + n * Real.pi - a = Real.pi * (x - (a / Real.pi - n)) := by field_simp; ring
    rw [h3, abs_mul, abs_of_pos (by linarith)]
    have h4 := abs_nonneg (x - (a / Real.pi - n))
    have h5 : Real.pi * |x - (a / Real.pi - n)| ≤ 315 / 100 * |x - (a / Real.pi - n)| := mul_le_mul_of_nonneg_right (by linarith [Real.pi_lt_d2]) h4
    have h6 : 0 ≤ (fmtOf b32).eps * |a| := by positivity
    have h7 : 0 ≤ constErr b32 * |a| := by positivity
    linarith
  · rw [Real.tan_add_int_mul_pi]
    exact t6

end

/-! ## The hypotheses can be met -/

/-- Decimals that the compiler rounds to the nearest float. -/
theorem wideFx_ieee (b32 : Bool) : IeeeOk wideFx b32 (fmtOf b32).eps ((fmtOf b32).eps * (fmtOf b32).tiny) where
  nonneg := ⟨FloatFmt.eps_pos.le, mul_nonneg FloatFmt.eps_pos.le FloatFmt.tiny_pos.le⟩
  lit d hd := by
    refine ⟨_, _, exprOfDec d, (fmtOf b32).rnd d.val, rfl, rfl, by cases b32 <;> simp only [wideFx, Encodable.encodek, if_true, if_false, Bool.false_eq_true], ?_, ?_⟩
    · rintro I ⟨calls, rfl⟩ env
      have : litValue (.float (displayDec d) "") = some d.val := by
        have := canon_parse d
        rw [litValue]
        simpa using this
      have hb : |(d.val : ℝ)| ≤ 2 ^ (fmtOf b32).bias := by
        have := FloatFmt.bias_fmtOf b32
        have h30 : (10 : ℝ) ^ 30 ≤ 2 ^ 127 := by norm_num
        linarith
      simp [exprOfDec, Expr.toR, RExpr.denote, ieeeInterp, litIE, litRV, this, FloatFmt.rne_f (FloatFmt.wide_fmtOf b32).ok hb]
    · rw [← mul_add]; exact FloatFmt.rnd_err _

/-- The constants as declared in the generated code, rounded. -/
noncomputable def declaredIE (b32 : Bool) (n : Name) : RV :=
  match constSource.find? (fun p => [p.1] == n) with
  | some p => match eval goodExt (configDigits b32) p.2 with
    | .ok (.lit l) => (RExpr.lit l).denote (ieeeInterp (fmtOf b32) fun _ _ => .junk) fun _ => .junk
    | _ => .junk
  | none => .junk

theorem declaredIE_ok (b32 : Bool) (calls : String → List RV → RV) : DeclaredIE goodExt b32 calls (declaredIE b32) := by
  intro p hp
  have h := C69_constants_in_code goodExt_ok (by decide) b32 (fmtOf b32) calls (declaredIE b32)
  obtain ⟨l, h1⟩ : ∃ l, eval goodExt (configDigits b32) p.2 = .ok (.lit l) := by
    obtain ⟨q, -, -, l, -, h2, -⟩ := forall2_get h.flip hp
    exact ⟨l, h2⟩
  refine ⟨l, h1, ?_⟩
  have h2 : constSource.find? (fun q => [q.1] == [p.1]) = some p := by
    unfold constSource at hp ⊢
    fin_cases hp <;> rfl
  rw [declaredIE, h2]
  simp only [h1]
  rfl

/-- Generated `round`, and nothing else. -/
noncomputable def roundIE (F : FloatFmt) (g : Name → RV) (name : String) (args : List RV) : RV :=
  if name = "round" then Gen.round.apply (ieeeInterp F fun _ _ => .junk) g args else .junk

theorem roundIE_linked (F : FloatFmt) (g : Name → RV) : LinkedIE F (roundIE F g) g Gen.round := by
  intro args
  simp only [roundIE, show Gen.round.name = "round" from rfl, if_true]
  rfl

/-- At 64 bits, `sin 100` is computed within `2⁻⁴³`. -/
example : ∃ e, polynomialCode goodExt wideFx false .sin ⟨-5, 1⟩ ⟨5, 1⟩ = .ok e ∧
    ∃ y, (Gen.sin e.toR).apply (ieeeInterp .f64 (roundIE .f64 (declaredIE false))) (declaredIE false) [.f 100] = .f y ∧
      |y - Real.sin 100| ≤ 1 / 2 ^ 43 := by
  have heps : (fmtOf false).eps = 1 / 2 ^ 53 := by
    rw [FloatFmt.eps, show -((fmtOf false).mant : ℤ) - 1 = -53 by decide]; norm_num
  have htiny : (fmtOf false).tiny ≤ 1 := (FloatFmt.tiny_fmtOf false).trans (by norm_num)
  have hp := FloatFmt.tiny_pos (F := fmtOf false)
  obtain ⟨e, h1, h2⟩ := C83_sin (b32 := false) goodExt_ok (by decide) (wideFx_ieee false) (by rw [heps]; norm_num) (by rw [heps]; norm_num at *; linarith)
  refine ⟨e, h1, ?_⟩
  obtain ⟨y, hy, he⟩ := h2 _ _ (roundIE_linked .f64 _) (declaredIE_ok _ _) 100 (by
    rw [abs_of_pos (by norm_num), show (fmtOf false).mant + 2 = 54 by decide]; norm_num)
  refine ⟨y, hy, he.trans ?_⟩
  rw [heps]
  simp only [sinErr, sinOps, constErr, configDigits, Bool.false_eq_true, if_false, abs_of_pos (by norm_num : (0 : ℝ) < 100)]
  norm_num at *; linarith

end Verif

import Verif.Props.ApproxSharp
import Verif.Lemmas.CodePoly
import Verif.Lemmas.NearTargets
import Verif.Props.Constants
import Verif.Props.GenBits
import Verif.Props.GenInvTrig

/-!
# C82: accuracy of the generated functions, from the expression to the result

The chain is: the target expression is sampled and interpolated by `approx` at the number of terms and digits of the shipped program (C81), the
decimal coefficients are turned into float literals by `use_number_type`, the polynomial is spliced into the generated function, and the function
is run on a real argument with the constants that the program generates (C69).  Only the rounding of the coefficients is a parameter:
relative error `u` plus absolute error `w`.  The arithmetic of the generated function is exact.
-/

namespace Verif
open Dec

section
variable {ext : BdExt} {fx : FloatExt} {b32 : Bool} {u w : ℝ}

/-- `g` holds the constants of the generated code: each is the literal that evaluating its definition gives. -/
def DeclaredConsts (ext : BdExt) (b32 : Bool) (F : FloatFmt) (calls : String → List RV → RV) (g : Name → RV) : Prop :=
  ∀ p ∈ constSource, ∃ l, eval ext (configDigits b32) p.2 = .ok (.lit l) ∧ g [p.1] = (RExpr.lit l).denote (realInterp F calls) g

/-- How far a constant can be off. -/
noncomputable def constErr (b32 : Bool) : ℝ := 60 / 10 ^ configDigits b32

theorem constErr_nonneg (b32 : Bool) : 0 ≤ constErr b32 := by unfold constErr; positivity

theorem constErr_le (b32 : Bool) : constErr b32 ≤ 60 / 10 ^ 20 := by
  unfold constErr configDigits
  cases b32 <;> norm_num

theorem forall2_get {α β : Type} {R : α → β → Prop} {xs : List α} {ys : List β} (h : List.Forall₂ R xs ys) {y : β} (hy : y ∈ ys) : ∃ x ∈ xs, R x y := by
  induction h with
  | nil => cases hy
  | cons h1 _ ih =>
    rcases List.mem_cons.1 hy with rfl | hy
    · exact ⟨_, List.mem_cons_self, h1⟩
    · obtain ⟨x, hx, hr⟩ := ih hy
      exact ⟨x, List.mem_cons_of_mem _ hx, hr⟩

/-- Each declared constant is close to its meaning. -/
theorem DeclaredConsts.get {F : FloatFmt} {calls : String → List RV → RV} {g : Name → RV} (h : DeclaredConsts ext b32 F calls g)
    (hs : SqrtOk ext) (hf : 20 ≤ ext.fuel) {name : String} {m : ℝ} (hm : (name, m) ∈ constMeaning) :
    ∃ c, g [name] = .f c ∧ |c - m| ≤ constErr b32 := by
  obtain ⟨p, hp, h1, l, y, h2, h3, h4⟩ := forall2_get (C69_constants_in_code hs hf b32 F calls g) hm
  obtain ⟨l', h5, h6⟩ := h p hp
  rw [h2] at h5
  cases h5
  simp only at h1
  subst h1
  exact ⟨y, by rw [h6, h3], h4⟩

/-! ## From the terms to the code -/

theorem silver_sum_le (N : ℕ) : ∑ k ∈ Finset.range (N + 1), silver ^ k ≤ (24143 / 10000) ^ (N + 1) / (14142 / 10000) := by
  have h := silver_bounds
  rw [geom_sum_eq (by linarith)]
  have h1 : silver ^ (N + 1) ≤ (24143 / 10000) ^ (N + 1) := pow_le_pow_left₀ (by linarith) h.2 _
  rw [div_le_div_iff₀ (by linarith) (by norm_num)]
  have h2 : 0 ≤ silver ^ (N + 1) := by have := silver_pos; positivity
  nlinarith

/-- The polynomial in the code, for a symmetric interval. -/
theorem LitOk.polynomialCode_near (h : FloatOk fx b32 u w) (s : ApproxSpec) (lo hi : Dec) (N : ℕ) (hk : shippedTerms s.name b32 = N + 1)
    {r : Expr} {terms : List Dec} (hr : approx ext s.target (N + 1) lo hi [s.var] s.parity (configDigits b32) = .ok r)
    (hm : mulAddPolynomial terms [s.var] s.parity = .ok r) (hlen : terms.length = N + 1) (hp : s.parity.accepts (N + 1))
    {f : ℝ → ℝ} {ε W τ A A' δ L : ℝ} (hlo : (lo.val : ℝ) = -W) (hhi : (hi.val : ℝ) = W) (hW : 0 < W) (hW1 : W ≤ 1)
    (herr : ∀ t ∈ Set.Icc (lo.val : ℝ) hi.val, |∑ i ∈ Finset.range (N + 1), (if s.parity.keeps i then (valAt terms i : ℝ) * t ^ i else 0) - f t| ≤ ε)
    (hf : NearPoly f N W τ A) (hτ : 0 ≤ τ) (hA : A + 2 * (ε + τ) * ((24143 / 10000) ^ (N + 1) / (14142 / 10000)) ≤ A') (hbig : A' ≤ 10 ^ 30 * W ^ N)
    (hδ0 : 0 ≤ δ) (hδ : (1 + δ / W) ^ N ≤ 2) (hL : ∀ x c : ℝ, |x| ≤ W + δ → |c| ≤ W → |x - c| ≤ δ → |f c - f x| ≤ L * δ) :
    ∃ e, polynomialCode ext fx b32 s lo hi = .ok e ∧
      ∀ F calls, Approximates (realInterp F calls) s.var e.toR f (Set.Icc (-(W + δ)) (W + δ))
        (ε + u * A' + w * (N + 1) + δ * (2 * N / W * ((1 + u) * A' + w * (N + 1)) + L)) := by
  rw [hlo, hhi] at herr
  have hε : 0 ≤ ε := (abs_nonneg _).trans (herr 0 ⟨by linarith, hW.le⟩)
  obtain ⟨r', e, h1, h2, h3⟩ := h.code_near terms s.var s.parity N hlen hp hW hW1 herr hf
    ((add_le_add_right (mul_le_mul_of_nonneg_left (silver_sum_le N) (by positivity)) A).trans hA) hbig hδ0 hδ hL
  rw [hm] at h1
  cases h1
  exact ⟨e, by rw [polynomialCode, hk, hr, Res.ok_bind, h2], h3⟩

/-- The same for a request with bounds in the table of requests, on the interval itself. -/
theorem LitOk.polynomialCode_within (h : FloatOk fx b32 u w) (s : ApproxSpec) {lo hi : Dec} (hb : s.bounds = some (lo, hi)) {N : ℕ}
    (hk : shippedTerms s.name b32 = N + 1) {f : ℝ → ℝ} {ε : ℚ} (ht : WithinTerms ext s (N + 1) (configDigits b32) f ε)
    {W τ A A' : ℝ} (hlo : (lo.val : ℝ) = -W) (hhi : (hi.val : ℝ) = W) (hW : 0 < W) (hW1 : W ≤ 1)
    (hf : NearPoly f N W τ A) (hτ : 0 ≤ τ) (hA : A + 2 * (ε + τ) * ((24143 / 10000) ^ (N + 1) / (14142 / 10000)) ≤ A') (hbig : A' ≤ 10 ^ 30 * W ^ N) :
    ∃ e, polynomialCode ext fx b32 s lo hi = .ok e ∧
      ∀ F calls, Approximates (realInterp F calls) s.var e.toR f (Set.Icc (-W) W) (ε + u * A' + w * (N + 1)) := by
  obtain ⟨lo', hi', r, terms, h1, h2, h3, h4, -, h6, h7⟩ := ht
  rw [hb] at h1
  cases h1
  have := h.polynomialCode_near (δ := 0) (L := 0) s lo hi N hk h2 h3 h4 h6 hlo hhi hW hW1 h7 hf hτ hA hbig le_rfl (by norm_num)
    (fun x c _ _ hxc => by
      have : x - c = 0 := abs_nonpos_iff.1 hxc
      rw [sub_eq_zero.1 this]; simp)
  simpa using this

theorem Approximates.mono {I : RInterp RV} {var : String} {p : RExpr} {f : ℝ → ℝ} {s s' : Set ℝ} {ε ε' : ℝ} (h : Approximates I var p f s ε)
    (hs : s' ⊆ s) (hε : ε ≤ ε') : Approximates I var p f s' ε' := by
  obtain ⟨P, h1, h2⟩ := h
  exact ⟨P, fun env x hx hm => h1 env x hx (hs hm), fun x hx => (h2 x (hs hx)).trans hε⟩

theorem half_val : (((⟨-5, 1⟩ : Dec).val : ℚ) : ℝ) = -(1 / 2) ∧ (((⟨5, 1⟩ : Dec).val : ℚ) : ℝ) = 1 / 2 := by
  have h1 : (⟨-5, 1⟩ : Dec).val = -(1 / 2) := by decide +kernel
  have h2 : (⟨5, 1⟩ : Dec).val = 1 / 2 := by decide +kernel
  rw [h1, h2]; push_cast; exact ⟨rfl, rfl⟩

/-! ## `sin` and `cos` -/

/-- Distance of the polynomial with decimal coefficients: 12 and 24 terms. -/
noncomputable def sinErr (b32 : Bool) : ℝ := if b32 then 194 / 10 ^ 9 else 189 / 10 ^ 22
/-- Distance of the polynomial with decimal coefficients: 13 and 25 terms. -/
noncomputable def cosErr (b32 : Bool) : ℝ := if b32 then 219 / 10 ^ 10 else 115 / 10 ^ 23

theorem sin_code (h : FloatOk fx b32 u w) : ∃ e, polynomialCode ext fx b32 .sin ⟨-5, 1⟩ ⟨5, 1⟩ = .ok e ∧
    ∀ F calls, Approximates (realInterp F calls) "x" e.toR (fun x => Real.sin (2 * Real.pi * x)) (Set.Icc (-(1 / 2)) (1 / 2)) (sinErr b32 + 12 * u + 24 * w) := by
  have hn := h.nonneg
  cases b32 with
  | true =>
    obtain ⟨e, h1, h2⟩ := h.polynomialCode_within (ext := ext) .sin rfl (by decide) (sin_sharp_12 ext).1 (A' := 12)
      half_val.1 half_val.2 (by norm_num) (by norm_num) (sin_sharp_12 ext).2 (by positivity) (by norm_num) (by norm_num)
    refine ⟨e, h1, fun F calls => (h2 F calls).mono le_rfl ?_⟩
    simp only [sinErr, if_true, if_false, Bool.false_eq_true]
    push_cast
    linarith
  | false =>
    obtain ⟨e, h1, h2⟩ := h.polynomialCode_within (ext := ext) .sin rfl (by decide) (sin_sharp_24 ext).1 (A' := 12)
      half_val.1 half_val.2 (by norm_num) (by norm_num) (sin_sharp_24 ext).2 (by positivity) (by norm_num) (by norm_num)
    refine ⟨e, h1, fun F calls => (h2 F calls).mono le_rfl ?_⟩
    simp only [sinErr, if_true, if_false, Bool.false_eq_true]
    push_cast
    linarith

theorem cos_code (h : FloatOk fx b32 u w) : ∃ e, polynomialCode ext fx b32 .cos ⟨-5, 1⟩ ⟨5, 1⟩ = .ok e ∧
    ∀ F calls, Approximates (realInterp F calls) "x" e.toR (fun x => Real.cos (2 * Real.pi * x)) (Set.Icc (-(1 / 2)) (1 / 2)) (cosErr b32 + 12 * u + 25 * w) := by
  have hn := h.nonneg
  cases b32 with
  | true =>
    obtain ⟨e, h1, h2⟩ := h.polynomialCode_within (ext := ext) .cos rfl (by decide) (cos_sharp_13 ext).1 (A' := 12)
      half_val.1 half_val.2 (by norm_num) (by norm_num) (cos_sharp_13 ext).2 (by positivity) (by norm_num) (by norm_num)
    refine ⟨e, h1, fun F calls => (h2 F calls).mono le_rfl ?_⟩
    simp only [cosErr, if_true, if_false, Bool.false_eq_true]
    push_cast
    linarith
  | false =>
    obtain ⟨e, h1, h2⟩ := h.polynomialCode_within (ext := ext) .cos rfl (by decide) (cos_sharp_25 ext).1 (A' := 12)
      half_val.1 half_val.2 (by norm_num) (by norm_num) (cos_sharp_25 ext).2 (by positivity) (by norm_num) (by norm_num)
    refine ⟨e, h1, fun F calls => (h2 F calls).mono le_rfl ?_⟩
    simp only [cosErr, if_true, if_false, Bool.false_eq_true]
    push_cast
    linarith

/-- The turn constant: what is left of a multiple of the argument. -/
theorem turns_const {c κ : ℝ} (hc : |c - 1 / (2 * Real.pi)| ≤ κ) : |2 * Real.pi * c - 1| ≤ 7 * κ := by
  have hpi := Real.pi_pos
  rw [show 2 * Real.pi * c - 1 = 2 * Real.pi * (c - 1 / (2 * Real.pi)) by field_simp, abs_mul, abs_of_pos (by positivity)]
  have := abs_nonneg (c - 1 / (2 * Real.pi))
  nlinarith [Real.pi_lt_d2]

theorem turns_small {c κ a X : ℝ} (hc : |c - 1 / (2 * Real.pi)| ≤ κ) (hκ : κ ≤ 60 / 10 ^ 20) (hX : 1 ≤ X) (ha : |a| ≤ X) : |a * c| + 1 / 2 < X := by
  have hpi := Real.pi_gt_three
  have h1 : (1 : ℝ) / (2 * Real.pi) ≤ 1 / 6 := one_div_le_one_div_of_le (by norm_num) (by linarith)
  have h0 : (0 : ℝ) < 1 / (2 * Real.pi) := by positivity
  have h2 := abs_le.1 hc
  have h3 : |c| ≤ 1 / 5 := by
    rw [abs_le]
    have : (60 : ℝ) / 10 ^ 20 ≤ 1 / 30 := by norm_num
    constructor <;> linarith
  rw [abs_mul]
  nlinarith [abs_nonneg a, abs_nonneg c]

/-- **C82** `sin` as the program ships it, at every argument whose number of turns the integer type can count. -/
theorem C82_sin (hs : SqrtOk ext) (hf : 20 ≤ ext.fuel) (h : FloatOk fx b32 u w) : ∃ e, polynomialCode ext fx b32 .sin ⟨-5, 1⟩ ⟨5, 1⟩ = .ok e ∧
    ∀ (F : FloatFmt) (calls : String → List RV → RV) (g : Name → RV), Linked F calls g Gen.round → DeclaredConsts ext b32 F calls g →
      ∀ a : ℝ, |a| ≤ 2 ^ (F.width - 1) → ∃ y, (Gen.sin e.toR).apply (realInterp F calls) g [.f a] = .f y ∧
        |y - Real.sin a| ≤ sinErr b32 + 12 * u + 24 * w + 7 * constErr b32 * |a| := by
  obtain ⟨e, h1, h2⟩ := sin_code (ext := ext) h
  refine ⟨e, h1, fun F calls g hl hg a ha => ?_⟩
  obtain ⟨c, hc, hc'⟩ := hg.get hs hf (name := "RECIP_2PI") (m := 1 / (2 * Real.pi)) (by simp [constMeaning])
  obtain ⟨y, hy, he⟩ := C51_sin hl hc (h2 F calls) a (turns_small hc' (constErr_le _) (one_le_pow₀ (by norm_num)) ha)
  refine ⟨y, hy, he.trans ?_⟩
  have := mul_le_mul_of_nonneg_right (turns_const hc') (abs_nonneg a)
  linarith

/-- **C82** `cos` as the program ships it. -/
theorem C82_cos (hs : SqrtOk ext) (hf : 20 ≤ ext.fuel) (h : FloatOk fx b32 u w) : ∃ e, polynomialCode ext fx b32 .cos ⟨-5, 1⟩ ⟨5, 1⟩ = .ok e ∧
    ∀ (F : FloatFmt) (calls : String → List RV → RV) (g : Name → RV), Linked F calls g Gen.round → DeclaredConsts ext b32 F calls g →
      ∀ a : ℝ, |a| ≤ 2 ^ (F.width - 1) → ∃ y, (Gen.cos e.toR).apply (realInterp F calls) g [.f a] = .f y ∧
        |y - Real.cos a| ≤ cosErr b32 + 12 * u + 25 * w + 7 * constErr b32 * |a| := by
  obtain ⟨e, h1, h2⟩ := cos_code (ext := ext) h
  refine ⟨e, h1, fun F calls g hl hg a ha => ?_⟩
  obtain ⟨c, hc, hc'⟩ := hg.get hs hf (name := "RECIP_2PI") (m := 1 / (2 * Real.pi)) (by simp [constMeaning])
  obtain ⟨y, hy, he⟩ := C51_cos hl hc (h2 F calls) a (turns_small hc' (constErr_le _) (one_le_pow₀ (by norm_num)) ha)
  refine ⟨y, hy, he.trans ?_⟩
  have := mul_le_mul_of_nonneg_right (turns_const hc') (abs_nonneg a)
  linarith

/-! ## `tan` -/

/-- Distance of the polynomial with decimal coefficients: 12 and 24 terms. -/
noncomputable def tanErr (b32 : Bool) : ℝ := if b32 then 419 / 10 ^ 12 else 270 / 10 ^ 21

theorem tan_val : (((⟨-499999, 6⟩ : Dec).val : ℚ) : ℝ) = -(499999 / 10 ^ 6) ∧ (((⟨499999, 6⟩ : Dec).val : ℚ) : ℝ) = 499999 / 10 ^ 6 := by
  have h1 : (⟨-499999, 6⟩ : Dec).val = -(499999 / 10 ^ 6) := by decide +kernel
  have h2 : (⟨499999, 6⟩ : Dec).val = 499999 / 10 ^ 6 := by decide +kernel
  rw [h1, h2]; push_cast; constructor <;> ring

theorem tan_code (h : FloatOk fx b32 u w) : ∃ e, polynomialCode ext fx b32 .tan ⟨-499999, 6⟩ ⟨499999, 6⟩ = .ok e ∧
    ∀ F calls, Approximates (realInterp F calls) "x" e.toR (fun x => Real.tan (Real.pi * x) * (x ^ 2 - 1 / 4)) (Set.Icc (-(499999 / 10 ^ 6)) (499999 / 10 ^ 6)) (tanErr b32 + u + 24 * w) := by
  have hn := h.nonneg
  cases b32 with
  | true =>
    obtain ⟨e, h1, h2⟩ := h.polynomialCode_within (ext := ext) .tan rfl (by decide) (tan_sharp_12 ext).1 (A' := 1)
      tan_val.1 tan_val.2 (by norm_num) (by norm_num) (tan_sharp_12 ext).2 (by positivity) (by norm_num) (by norm_num)
    refine ⟨e, h1, fun F calls => (h2 F calls).mono le_rfl ?_⟩
    simp only [tanErr, if_true, if_false, Bool.false_eq_true]
    push_cast
    linarith
  | false =>
    obtain ⟨e, h1, h2⟩ := h.polynomialCode_within (ext := ext) .tan rfl (by decide) (tan_sharp_24 ext).1 (A' := 1)
      tan_val.1 tan_val.2 (by norm_num) (by norm_num) (tan_sharp_24 ext).2 (by positivity) (by norm_num) (by norm_num)
    refine ⟨e, h1, fun F calls => (h2 F calls).mono le_rfl ?_⟩
    simp only [tanErr, if_true, if_false, Bool.false_eq_true]
    push_cast
    linarith

/-- **C82** `tan` as the program ships it.  At a distance of at least `d ≥ 10⁻⁶` half turns from the poles the result is within `2E/d` of the tangent
of an argument that is off by a few units in the last digit of the constant. -/
theorem C82_tan (hs : SqrtOk ext) (hf : 20 ≤ ext.fuel) (h : FloatOk fx b32 u w) : ∃ e, polynomialCode ext fx b32 .tan ⟨-499999, 6⟩ ⟨499999, 6⟩ = .ok e ∧
    ∀ (F : FloatFmt) (calls : String → List RV → RV) (g : Name → RV), Linked F calls g Gen.round → DeclaredConsts ext b32 F calls g →
      ∀ a d : ℝ, |a| ≤ 2 ^ (F.width - 1) → 1 / 10 ^ 6 ≤ d → (∀ k : ℤ, d + constErr b32 * |a| ≤ |a / Real.pi - (k + 1 / 2)|) →
        ∃ y a', (Gen.tan e.toR).apply (realInterp F calls) g [.f a] = .f y ∧ |a' - a| ≤ 4 * constErr b32 * |a| ∧
          |y - Real.tan a'| ≤ 2 * (tanErr b32 + u + 24 * w) / d := by
  obtain ⟨e, h1, h2⟩ := tan_code (ext := ext) h
  refine ⟨e, h1, fun F calls g hl hg a d ha hd hpole => ?_⟩
  have hpi := Real.pi_gt_three
  obtain ⟨c, hc, hc'⟩ := hg.get hs hf (name := "RECIP_PI") (m := 1 / Real.pi) (by simp [constMeaning])
  have hd0 : 0 < d := lt_of_lt_of_le (by norm_num) hd
  have hp : Approximates (realInterp F calls) "x" e.toR (fun x => Real.tan (Real.pi * x) * (x * x - 1 / 4)) (Set.Icc (-(1 / 2 - d)) (1 / 2 - d)) (tanErr b32 + u + 24 * w) := by
    have := (h2 F calls).mono (s' := Set.Icc (-(1 / 2 - d)) (1 / 2 - d)) (Set.Icc_subset_Icc (by linarith) (by linarith)) le_rfl
    simpa only [pow_two] using this
  have hX : (1 : ℝ) ≤ 2 ^ (F.width - 1) := one_le_pow₀ (by norm_num)
  have hκ := constErr_le b32
  have hcabs : |c| ≤ 2 / 5 := by
    have h1 : (1 : ℝ) / Real.pi ≤ 1 / 3 := one_div_le_one_div_of_le (by norm_num) (by linarith)
    have h0 : (0 : ℝ) < 1 / Real.pi := by positivity
    have h2 := abs_le.1 hc'
    rw [abs_le]
    have : (60 : ℝ) / 10 ^ 20 ≤ 1 / 30 := by norm_num
    constructor <;> linarith
  have hoff : |a * c - a / Real.pi| ≤ constErr b32 * |a| := by
    rw [show a * c - a / Real.pi = (c - 1 / Real.pi) * a by ring, abs_mul]
    exact mul_le_mul_of_nonneg_right hc' (abs_nonneg a)
  obtain ⟨y, hy, he⟩ := C51_tan_const hl hc hd0 hp a (by rw [abs_mul]; nlinarith [abs_nonneg a, abs_nonneg c]) (fun k => by
    have h3 := hpole k
    have h4 := abs_sub_abs_le_abs_sub (a / Real.pi - (k + 1 / 2)) (a * c - (k + 1 / 2))
    rw [show a / Real.pi - (k + 1 / 2) - (a * c - (k + 1 / 2)) = -(a * c - a / Real.pi) by ring, abs_neg] at h4
    linarith)
  refine ⟨y, _, hy, ?_, he⟩
  rw [show Real.pi * (a * c) - a = Real.pi * (a * c - a / Real.pi) by field_simp, abs_mul, abs_of_pos (by linarith)]
  have := abs_nonneg (a * c - a / Real.pi)
  nlinarith [Real.pi_lt_d2]

/-! ## `exp2`, `exp_m1` and `log2` -/

/-- Distance of the polynomial with decimal coefficients: 8 and 12 terms. -/
noncomputable def exp2Err (b32 : Bool) : ℝ := if b32 then 2 / 10 ^ 10 else 1 / 10 ^ 17
/-- Distance of the polynomial with decimal coefficients: 10 and 20 terms. -/
noncomputable def log2Err (b32 : Bool) : ℝ := if b32 then 152 / 10 ^ 10 else 169 / 10 ^ 18

theorem exp2_code (h : FloatOk fx b32 u w) (hf : 5 ≤ ext.fuel) : ∃ e, polynomialCode ext fx b32 .exp2 ⟨-5, 1⟩ ⟨5, 1⟩ = .ok e ∧
    ∀ F calls, Approximates (realInterp F calls) "x" e.toR (fun x => (2 : ℝ) ^ x) (Set.Icc (-(1 / 2)) (1 / 2)) (exp2Err b32 + 2 * u + 12 * w) := by
  have hn := h.nonneg
  cases b32 with
  | true =>
    obtain ⟨e, h1, h2⟩ := h.polynomialCode_within (ext := ext) .exp2 rfl (by decide) (exp2_terms ext hf 7 20 (2 / 10 ^ 10) (by decide +kernel)) (A' := 2)
      half_val.1 half_val.2 (by norm_num) (by norm_num) (nearPoly_exp2 7) (by positivity) (by norm_num) (by norm_num)
    refine ⟨e, h1, fun F calls => (h2 F calls).mono le_rfl ?_⟩
    simp only [exp2Err, if_true, if_false, Bool.false_eq_true]
    push_cast
    linarith
  | false =>
    obtain ⟨e, h1, h2⟩ := h.polynomialCode_within (ext := ext) .exp2 rfl (by decide) (exp2_terms ext hf 11 40 (1 / 10 ^ 17) (by decide +kernel)) (A' := 2)
      half_val.1 half_val.2 (by norm_num) (by norm_num) (nearPoly_exp2 11) (by positivity) (by norm_num) (by norm_num)
    refine ⟨e, h1, fun F calls => (h2 F calls).mono le_rfl ?_⟩
    simp only [exp2Err, if_true, if_false, Bool.false_eq_true]
    push_cast
    linarith

theorem exp_m1_code (h : FloatOk fx b32 u w) (hf : 5 ≤ ext.fuel) : ∃ e, polynomialCode ext fx b32 .exp_m1 ⟨-5, 1⟩ ⟨5, 1⟩ = .ok e ∧
    ∀ F calls, Approximates (realInterp F calls) "x" e.toR (fun x => (2 : ℝ) ^ x - 1) (Set.Icc (-(1 / 2)) (1 / 2)) (exp2Err b32 + 3 * u + 12 * w) := by
  have hn := h.nonneg
  cases b32 with
  | true =>
    obtain ⟨e, h1, h2⟩ := h.polynomialCode_within (ext := ext) .exp_m1 rfl (by decide) (exp_m1_terms ext hf 7 20 (2 / 10 ^ 10) (by decide +kernel)) (A' := 3)
      half_val.1 half_val.2 (by norm_num) (by norm_num) (nearPoly_exp_m1 7) (by positivity) (by norm_num) (by norm_num)
    refine ⟨e, h1, fun F calls => (h2 F calls).mono le_rfl ?_⟩
    simp only [exp2Err, if_true, if_false, Bool.false_eq_true]
    push_cast
    linarith
  | false =>
    obtain ⟨e, h1, h2⟩ := h.polynomialCode_within (ext := ext) .exp_m1 rfl (by decide) (exp_m1_terms ext hf 11 40 (1 / 10 ^ 17) (by decide +kernel)) (A' := 3)
      half_val.1 half_val.2 (by norm_num) (by norm_num) (nearPoly_exp_m1 11) (by positivity) (by norm_num) (by norm_num)
    refine ⟨e, h1, fun F calls => (h2 F calls).mono le_rfl ?_⟩
    simp only [exp2Err, if_true, if_false, Bool.false_eq_true]
    push_cast
    linarith

theorem log2_code (h : FloatOk fx b32 u w) (hf : 5 ≤ ext.fuel) : ∃ e, polynomialCode ext fx b32 .log2 ⟨-5, 1⟩ ⟨5, 1⟩ = .ok e ∧
    ∀ F calls, Approximates (realInterp F calls) "x" e.toR (fun x => Real.logb 2 (x + 3 / 2)) (Set.Icc (-(1 / 2)) (1 / 2)) (log2Err b32 + 2 * u + 20 * w) := by
  have hn := h.nonneg
  cases b32 with
  | true =>
    obtain ⟨e, h1, h2⟩ := h.polynomialCode_within (ext := ext) .log2 rfl (by decide) (log2_sharp_10 ext hf).1 (A' := 2)
      half_val.1 half_val.2 (by norm_num) (by norm_num) (log2_sharp_10 ext hf).2 (by positivity) (by norm_num) (by norm_num)
    refine ⟨e, h1, fun F calls => (h2 F calls).mono le_rfl ?_⟩
    simp only [log2Err, if_true, if_false, Bool.false_eq_true]
    push_cast
    linarith
  | false =>
    obtain ⟨e, h1, h2⟩ := h.polynomialCode_within (ext := ext) .log2 rfl (by decide) (log2_sharp_20 ext hf).1 (A' := 2)
      half_val.1 half_val.2 (by norm_num) (by norm_num) (log2_sharp_20 ext hf).2 (by positivity) (by norm_num) (by norm_num)
    refine ⟨e, h1, fun F calls => (h2 F calls).mono le_rfl ?_⟩
    simp only [log2Err, if_true, if_false, Bool.false_eq_true]
    push_cast
    linarith

/-- **C82** `exp2` as the program ships it, relative to the result. -/
theorem C82_exp2 (hf : 5 ≤ ext.fuel) (h : FloatOk fx b32 u w) : ∃ e, polynomialCode ext fx b32 .exp2 ⟨-5, 1⟩ ⟨5, 1⟩ = .ok e ∧
    ∀ (F : FloatFmt) (calls : String → List RV → RV) (g : Name → RV), F.Ok → BitConsts F g → Linked F calls g Gen.round →
      ∀ a : ℝ, 1 - (F.bias : ℝ) ≤ a → a ≤ F.bias → ∃ y, (Gen.exp2 e.toR).apply (realInterp F calls) g [.f a] = .f y ∧
        |y - (2 : ℝ) ^ a| ≤ √2 * (exp2Err b32 + 2 * u + 12 * w) * (2 : ℝ) ^ a := by
  obtain ⟨e, h1, h2⟩ := exp2_code (ext := ext) h hf
  exact ⟨e, h1, fun F calls g hF hg hl a ha hb => C53_exp2_partial hF hg hl (h2 F calls) a ha hb⟩

/-- **C82** `exp_m1` as the program ships it: the argument is off by a few units in the last digit of the constant. -/
theorem C82_exp_m1 (hs : SqrtOk ext) (hf : 20 ≤ ext.fuel) (h : FloatOk fx b32 u w) : ∃ e, polynomialCode ext fx b32 .exp_m1 ⟨-5, 1⟩ ⟨5, 1⟩ = .ok e ∧
    ∀ (F : FloatFmt) (calls : String → List RV → RV) (g : Name → RV), F.Ok → BitConsts F g → Linked F calls g Gen.round → DeclaredConsts ext b32 F calls g →
      ∀ a : ℝ, |a| * (3 / 2) ≤ F.bias - 1 → ∃ y a', (Gen.exp_m1 e.toR).apply (realInterp F calls) g [.f a] = .f y ∧ |a' - a| ≤ constErr b32 * |a| ∧
        |y - (Real.exp a' - 1)| ≤ √2 * (exp2Err b32 + 3 * u + 12 * w) * Real.exp a' := by
  obtain ⟨e, h1, h2⟩ := exp_m1_code (ext := ext) h (by omega)
  refine ⟨e, h1, fun F calls g hF hg hl hd a ha => ?_⟩
  obtain ⟨c, hc, hc'⟩ := hd.get hs hf (name := "LOG2_E") (m := Real.logb 2 (Real.exp 1)) (by simp [constMeaning])
  have hlog : Real.logb 2 (Real.exp 1) = 1 / Real.log 2 := by rw [Real.logb, Real.log_exp]
  rw [hlog] at hc'
  have hl2 := Real.log_two_gt_d9
  have hl2' := Real.log_two_lt_d9
  have hκ := constErr_le b32
  have hcabs : |c| ≤ 3 / 2 := by
    have h1 : (1 : ℝ) / Real.log 2 ≤ 1 / (69 / 100) := one_div_le_one_div_of_le (by norm_num) (by linarith)
    have h0 : (0 : ℝ) < 1 / Real.log 2 := by positivity
    have h2 := abs_le.1 hc'
    rw [abs_le]
    have : (60 : ℝ) / 10 ^ 20 ≤ 1 / 100 := by norm_num
    constructor <;> linarith
  have hac : |a * c| ≤ F.bias - 1 := by
    rw [abs_mul]
    exact (mul_le_mul_of_nonneg_left hcabs (abs_nonneg a)).trans ha
  obtain ⟨y, hy, he⟩ := C53_exp_m1_const hF hg hl hc (h2 F calls) a (by linarith [(abs_le.1 hac).1]) (by linarith [(abs_le.1 hac).2])
  have hexp : (2 : ℝ) ^ (a * c) = Real.exp (a * c * Real.log 2) := by rw [Real.rpow_def_of_pos (by norm_num), mul_comm]
  rw [hexp] at he
  refine ⟨y, _, hy, ?_, he⟩
  rw [show a * c * Real.log 2 - a = (c - 1 / Real.log 2) * a * Real.log 2 by field_simp, abs_mul, abs_mul, abs_of_pos (by linarith : 0 < Real.log 2)]
  have h3 := mul_le_mul_of_nonneg_right hc' (abs_nonneg a)
  have h4 : 0 ≤ |c - 1 / Real.log 2| * |a| := by positivity
  nlinarith

/-- **C82** `log2` as the program ships it, of every positive normal float. -/
theorem C82_log2 (hf : 5 ≤ ext.fuel) (h : FloatOk fx b32 u w) : ∃ e, polynomialCode ext fx b32 .log2 ⟨-5, 1⟩ ⟨5, 1⟩ = .ok e ∧
    ∀ (F : FloatFmt) (calls : String → List RV → RV) (g : Name → RV), F.Ok → BitConsts F g →
      ∀ E f : ℕ, 0 < E → E < 2 ^ F.ebits - 1 → f < 2 ^ F.mant →
        ∃ y, (Gen.log2 e.toR).apply (realInterp F calls) g [.f ((1 + f / 2 ^ F.mant) * (2 : ℝ) ^ ((E : ℤ) - F.bias))] = .f y ∧
          |y - Real.logb 2 ((1 + f / 2 ^ F.mant) * (2 : ℝ) ^ ((E : ℤ) - F.bias))| ≤ log2Err b32 + 2 * u + 20 * w := by
  obtain ⟨e, h1, h2⟩ := log2_code (ext := ext) h hf
  exact ⟨e, h1, fun F calls g hF hg E f h0 hE hf => C54_log2 hF hg ((h2 F calls).mono Set.Ico_subset_Icc_self le_rfl) h0 hE hf⟩

/-! ## `atan` -/

/-- Distance of the polynomial with decimal coefficients: 16 and 36 terms. -/
noncomputable def atanErr (b32 : Bool) : ℝ := if b32 then 867 / 10 ^ 10 else 889 / 10 ^ 18

theorem one_val : (((⟨-1, 0⟩ : Dec).val : ℚ) : ℝ) = -1 ∧ (((⟨1, 0⟩ : Dec).val : ℚ) : ℝ) = 1 := by
  have h1 : (⟨-1, 0⟩ : Dec).val = -1 := by decide +kernel
  have h2 : (⟨1, 0⟩ : Dec).val = 1 := by decide +kernel
  rw [h1, h2]; push_cast; exact ⟨rfl, rfl⟩

theorem atan_code (h : FloatOk fx b32 u w) (hs : SqrtOk ext) (hf : 3 ≤ ext.fuel) : ∃ e, polynomialCode ext fx b32 .atan ⟨-1, 0⟩ ⟨1, 0⟩ = .ok e ∧
    ∀ F calls, Approximates (realInterp F calls) "x" e.toR Real.arctan (Set.Icc (-1) 1) (atanErr b32 + 3 * u + 36 * w) := by
  have hn := h.nonneg
  cases b32 with
  | true =>
    obtain ⟨e, h1, h2⟩ := h.polynomialCode_within (ext := ext) .atan rfl (by decide) (atan_sharp_16 ext hs hf).1 (A' := 3)
      one_val.1 one_val.2 (by norm_num) (by norm_num) (atan_sharp_16 ext hs hf).2 (by positivity) (by norm_num) (by norm_num)
    refine ⟨e, h1, fun F calls => (h2 F calls).mono le_rfl ?_⟩
    simp only [atanErr, if_true, if_false, Bool.false_eq_true]
    push_cast
    linarith
  | false =>
    obtain ⟨e, h1, h2⟩ := h.polynomialCode_within (ext := ext) .atan rfl (by decide) (atan_sharp_36 ext hs hf).1 (A' := 3)
      one_val.1 one_val.2 (by norm_num) (by norm_num) (atan_sharp_36 ext hs hf).2 (by positivity) (by norm_num) (by norm_num)
    refine ⟨e, h1, fun F calls => (h2 F calls).mono le_rfl ?_⟩
    simp only [atanErr, if_true, if_false, Bool.false_eq_true]
    push_cast
    linarith

/-- **C82** `atan` as the program ships it, at every real argument. -/
theorem C82_atan (hs : SqrtOk ext) (hf : 20 ≤ ext.fuel) (h : FloatOk fx b32 u w) : ∃ e, polynomialCode ext fx b32 .atan ⟨-1, 0⟩ ⟨1, 0⟩ = .ok e ∧
    ∀ (F : FloatFmt) (calls : String → List RV → RV) (g : Name → RV), DeclaredConsts ext b32 F calls g →
      ∀ a : ℝ, ∃ y, (Gen.atan e.toR).apply (realInterp F calls) g [.f a] = .f y ∧
        |y - Real.arctan a| ≤ atanErr b32 + 3 * u + 36 * w + constErr b32 := by
  obtain ⟨e, h1, h2⟩ := atan_code (ext := ext) h hs (by omega)
  refine ⟨e, h1, fun F calls g hg a => ?_⟩
  obtain ⟨c, hc, hc'⟩ := hg.get hs hf (name := "PI_BY_2") (m := Real.pi / 2) (by simp [constMeaning])
  obtain ⟨y, hy, he⟩ := C52_atan_const hc (h2 F calls) a
  exact ⟨y, hy, he.trans (by linarith)⟩

/-! ## `asin` and `acos` -/

/-- Distance of the polynomial with decimal coefficients: 16 and 36 terms, with the little that the arguments reach over the end of the interval. -/
noncomputable def asinErr (b32 : Bool) : ℝ := if b32 then 144 / 10 ^ 10 else 14 / 10 ^ 17
/-- Distance of the polynomial with decimal coefficients: 16 and 34 terms, with the little that the arguments reach over the end of the interval. -/
noncomputable def acosErr (b32 : Bool) : ℝ := if b32 then 144 / 10 ^ 10 else 67 / 10 ^ 17

theorem asin_val : (((⟨-70710678118654752440, 20⟩ : Dec).val : ℚ) : ℝ) = -(70710678118654752440 / 10 ^ 20) ∧
    (((⟨70710678118654752440, 20⟩ : Dec).val : ℚ) : ℝ) = 70710678118654752440 / 10 ^ 20 := by
  have h1 : (⟨-70710678118654752440, 20⟩ : Dec).val = -(70710678118654752440 / 10 ^ 20) := by decide +kernel
  have h2 : (⟨70710678118654752440, 20⟩ : Dec).val = 70710678118654752440 / 10 ^ 20 := by decide +kernel
  rw [h1, h2]; push_cast; constructor <;> ring

theorem arcsin_lipschitz {x c : ℝ} (hx : |x| ≤ 4 / 5) (hc : |c| ≤ 4 / 5) : |Real.arcsin c - Real.arcsin x| ≤ 2 * |x - c| := by
  have key := Convex.norm_image_sub_le_of_norm_hasDerivWithin_le (f := Real.arcsin) (f' := fun t => 1 / √(1 - t ^ 2)) (s := Set.Icc (-(4 / 5)) (4 / 5)) (C := 2) (x := x) (y := c)
    (fun t ht => (Real.hasDerivAt_arcsin (by linarith [ht.1]) (by linarith [ht.2])).hasDerivWithinAt)
    (fun t ht => by
      have h1 : 1 / 2 ≤ √(1 - t ^ 2) := Real.le_sqrt_of_sq_le (by nlinarith [ht.1, ht.2])
      rw [Real.norm_eq_abs, abs_of_nonneg (by positivity)]
      rw [div_le_iff₀ (by linarith)]
      linarith)
    (convex_Icc _ _) (abs_le.1 hx) (abs_le.1 hc)
  rw [Real.norm_eq_abs, Real.norm_eq_abs] at key
  rwa [abs_sub_comm x c]

/-- The request behind `asin` and `acos`. -/
theorem asin_like_code (h : FloatOk fx b32 u w) (hu : u ≤ 1) (hw : w ≤ 1) (s : ApproxSpec) (hv : s.var = "x") (hp : s.parity = .odd)
    (hb : s.bounds = some (⟨-70710678118654752440, 20⟩, ⟨70710678118654752440, 20⟩)) (N : ℕ) (hN : N ≤ 35) (hodd : (N + 1) % 2 = 0) (hk : shippedTerms s.name b32 = N + 1)
    {ε A : ℚ} (ht : WithinTerms ext s (N + 1) (configDigits b32) Real.arcsin ε ∧ NearPoly Real.arcsin N (70710678118654752440 / 10 ^ 20) ε A) (hε : 0 ≤ ε)
    (hA : (A : ℝ) + 2 * (ε + ε) * ((24143 / 10000) ^ (N + 1) / (14142 / 10000)) ≤ 1) :
    ∃ e, polynomialCode ext fx b32 s ⟨-70710678118654752440, 20⟩ ⟨70710678118654752440, 20⟩ = .ok e ∧
      ∀ F calls, Approximates (realInterp F calls) "x" e.toR Real.arcsin asinRange (ε + 4 / 10 ^ 17 + u + 36 * w) := by
  obtain ⟨u0, w0⟩ := h.nonneg
  obtain ⟨⟨lo', hi', r, terms, h1, h2, h3, h4, -, h6, h7⟩, ht2⟩ := ht
  rw [hb] at h1
  cases h1
  have hWN : (1 : ℝ) ≤ 10 ^ 30 * (70710678118654752440 / 10 ^ 20) ^ N := by
    have : (1 / 2 : ℝ) ^ 35 ≤ (70710678118654752440 / 10 ^ 20) ^ N :=
      (pow_le_pow_of_le_one (by norm_num) (by norm_num) hN).trans (pow_le_pow_left₀ (by norm_num) (by norm_num) N)
    have h2 : (1 : ℝ) ≤ 10 ^ 30 * (1 / 2) ^ 35 := by norm_num
    linarith [mul_le_mul_of_nonneg_left this (by norm_num : (0 : ℝ) ≤ 10 ^ 30)]
  have hgrow : (1 + 1 / 10 ^ 20 / (70710678118654752440 / 10 ^ 20 : ℝ)) ^ N ≤ 2 := by
    refine (pow_le_pow_right₀ (by norm_num) hN).trans ?_
    norm_num
  obtain ⟨e, he, ha⟩ := h.polynomialCode_near (ext := ext) (δ := 1 / 10 ^ 20) (L := 2) s _ _ N hk h2 h3 h4 h6 asin_val.1 asin_val.2 (by norm_num) (by norm_num) h7
    ht2 (by exact_mod_cast hε) hA hWN (by positivity) hgrow
    (fun x c hx hc hxc => (arcsin_lipschitz (hx.trans (by norm_num)) (hc.trans (by norm_num))).trans (by linarith))
  refine ⟨e, he, fun F calls => ?_⟩
  rw [← hv]
  refine (ha F calls).mono (Set.Icc_subset_Icc (by norm_num) (by norm_num)) ?_
  have hN' : (N : ℝ) ≤ 35 := by exact_mod_cast hN
  have hN0 : (0 : ℝ) ≤ N := by positivity
  have e1 : 2 * N / (70710678118654752440 / 10 ^ 20 : ℝ) ≤ 100 := by
    rw [div_le_iff₀ (by norm_num)]; linarith
  have e2 : (1 + u) * 1 + w * (N + 1) ≤ 38 := by nlinarith
  have e3 : 0 ≤ (1 + u) * 1 + w * (N + 1) := by positivity
  have e4 : 2 * N / (70710678118654752440 / 10 ^ 20 : ℝ) * ((1 + u) * 1 + w * (N + 1)) ≤ 100 * 38 := mul_le_mul e1 e2 e3 (by norm_num)
  have e5 : w * (N + 1) ≤ 36 * w := by nlinarith
  have e6 : 1 / 10 ^ 20 * (2 * N / (70710678118654752440 / 10 ^ 20 : ℝ) * ((1 + u) * 1 + w * (N + 1)) + 2) ≤ 4 / 10 ^ 17 := by
    have : (1 : ℝ) / 10 ^ 20 * (100 * 38 + 2) ≤ 4 / 10 ^ 17 := by norm_num
    refine le_trans ?_ this
    gcongr
  linarith

/-- **C82** `asin` as the program ships it, on `[-1, 1]`. -/
theorem C82_asin (hs : SqrtOk ext) (hf : 20 ≤ ext.fuel) (h : FloatOk fx b32 u w) (hu : u ≤ 1) (hw : w ≤ 1) :
    ∃ e, polynomialCode ext fx b32 .asin ⟨-70710678118654752440, 20⟩ ⟨70710678118654752440, 20⟩ = .ok e ∧
    ∀ (F : FloatFmt) (calls : String → List RV → RV) (g : Name → RV), DeclaredConsts ext b32 F calls g →
      ∀ a : ℝ, |a| ≤ 1 → ∃ y, (Gen.asin e.toR).apply (realInterp F calls) g [.f a] = .f y ∧
        |y - Real.arcsin a| ≤ asinErr b32 + u + 36 * w + constErr b32 := by
  have key : ∃ e, polynomialCode ext fx b32 .asin ⟨-70710678118654752440, 20⟩ ⟨70710678118654752440, 20⟩ = .ok e ∧
      ∀ F calls, Approximates (realInterp F calls) "x" e.toR Real.arcsin asinRange (asinErr b32 + u + 36 * w) := by
    cases b32 with
    | true =>
      obtain ⟨e, h1, h2⟩ := asin_like_code (ext := ext) h hu hw .asin rfl rfl rfl 15 (by norm_num) rfl (by decide)
        (asin_sharp_16 ext hs (by omega) .asin rfl rfl rfl rfl) (by norm_num) (by norm_num)
      exact ⟨e, h1, fun F calls => (h2 F calls).mono le_rfl (by simp only [asinErr, if_true]; push_cast; norm_num)⟩
    | false =>
      obtain ⟨e, h1, h2⟩ := asin_like_code (ext := ext) h hu hw .asin rfl rfl rfl 35 (by norm_num) rfl (by decide)
        (asin_sharp_36 ext hs (by omega)) (by norm_num) (by norm_num)
      exact ⟨e, h1, fun F calls => (h2 F calls).mono le_rfl (by simp only [asinErr, if_false, Bool.false_eq_true]; push_cast; norm_num)⟩
  obtain ⟨e, h1, h2⟩ := key
  refine ⟨e, h1, fun F calls g hg a ha => ?_⟩
  obtain ⟨c, hc, hc'⟩ := hg.get hs hf (name := "PI_BY_2") (m := Real.pi / 2) (by simp [constMeaning])
  obtain ⟨y, hy, he⟩ := C52_asin_const hc (h2 F calls) a ha
  exact ⟨y, hy, he.trans (by linarith)⟩

/-- **C82** `acos` as the program ships it, on `[-1, 1]`. -/
theorem C82_acos (hs : SqrtOk ext) (hf : 20 ≤ ext.fuel) (h : FloatOk fx b32 u w) (hu : u ≤ 1) (hw : w ≤ 1) :
    ∃ e, polynomialCode ext fx b32 .acos ⟨-70710678118654752440, 20⟩ ⟨70710678118654752440, 20⟩ = .ok e ∧
    ∀ (F : FloatFmt) (calls : String → List RV → RV) (g : Name → RV), DeclaredConsts ext b32 F calls g →
      ∀ a : ℝ, |a| ≤ 1 → ∃ y, (Gen.acos e.toR).apply (realInterp F calls) g [.f a] = .f y ∧
        |y - Real.arccos a| ≤ acosErr b32 + u + 36 * w + 2 * constErr b32 := by
  have key : ∃ e, polynomialCode ext fx b32 .acos ⟨-70710678118654752440, 20⟩ ⟨70710678118654752440, 20⟩ = .ok e ∧
      ∀ F calls, Approximates (realInterp F calls) "x" e.toR Real.arcsin asinRange (acosErr b32 + u + 36 * w) := by
    cases b32 with
    | true =>
      obtain ⟨e, h1, h2⟩ := asin_like_code (ext := ext) h hu hw .acos rfl rfl rfl 15 (by norm_num) rfl (by decide)
        (asin_sharp_16 ext hs (by omega) .acos rfl rfl rfl rfl) (by norm_num) (by norm_num)
      exact ⟨e, h1, fun F calls => (h2 F calls).mono le_rfl (by simp only [acosErr, if_true]; push_cast; norm_num)⟩
    | false =>
      obtain ⟨e, h1, h2⟩ := asin_like_code (ext := ext) h hu hw .acos rfl rfl rfl 33 (by norm_num) rfl (by decide)
        (acos_sharp_34 ext hs (by omega)) (by norm_num) (by norm_num)
      exact ⟨e, h1, fun F calls => (h2 F calls).mono le_rfl (by simp only [acosErr, if_false, Bool.false_eq_true]; push_cast; norm_num)⟩
  obtain ⟨e, h1, h2⟩ := key
  refine ⟨e, h1, fun F calls g hg a ha => ?_⟩
  obtain ⟨c, hc, hc'⟩ := hg.get hs hf (name := "PI_BY_2") (m := Real.pi / 2) (by simp [constMeaning])
  obtain ⟨k, hk, hk'⟩ := hg.get hs hf (name := "PI") (m := Real.pi) (by simp [constMeaning])
  obtain ⟨y, hy, he⟩ := C52_acos_const hc hk (h2 F calls) a ha
  exact ⟨y, hy, he.trans (by linarith)⟩

/-! ## `atan2` -/

/-- Distance of the code, with what the arguments reach over the end of the interval: 16 and 36 terms. -/
noncomputable def atan2Err (b32 : Bool) : ℝ := if b32 then 41 / 10 ^ 13 else 12 / 10 ^ 15

theorem tan_eighth_bounds : (414213 / 10 ^ 6 : ℝ) ≤ Real.tan (Real.pi / 8) ∧ Real.tan (Real.pi / 8) ≤ 414214 / 10 ^ 6 := by
  have hpi := Real.pi_pos
  have hT : 0 < Real.tan (Real.pi / 8) := Real.tan_pos_of_pos_of_lt_pi_div_two (by linarith) (by linarith)
  have h := tan_eighth
  rw [eq_div_iff (by positivity)] at h
  constructor <;> nlinarith

theorem arctan_nonexpansive (x y : ℝ) : |Real.arctan x - Real.arctan y| ≤ |x - y| := by
  have key := Convex.norm_image_sub_le_of_norm_hasDerivWithin_le (f := Real.arctan) (f' := fun t => 1 / (1 + t ^ 2)) (s := Set.univ) (C := 1) (x := y) (y := x)
    (fun t _ => (Real.hasDerivAt_arctan t).hasDerivWithinAt)
    (fun t _ => by
      rw [Real.norm_eq_abs, abs_of_nonneg (by positivity)]
      rw [div_le_one (by positivity)]
      nlinarith [sq_nonneg t])
    convex_univ trivial trivial
  rw [Real.norm_eq_abs, Real.norm_eq_abs, one_mul] at key
  exact key

theorem atan2_code (hs : SqrtOk ext) (hf : 3 ≤ ext.fuel) (h : FloatOk fx b32 u w) (hu : u ≤ 1 / 10) (hw : w ≤ 1 / 1000) (lo hi : Dec) (hlo : lo.val = -hi.val)
    (hhi : |(hi.val : ℝ) - Real.tan (Real.pi / 8)| ≤ 1 / 10 ^ 16) :
    ∃ e, polynomialCode ext fx b32 .atan2 lo hi = .ok e ∧ ∀ F calls, Approximates (realInterp F calls) "z" e.toR Real.arctan
      (Set.Icc (-(Real.tan (Real.pi / 8) + 1 / 10 ^ 17)) (Real.tan (Real.pi / 8) + 1 / 10 ^ 17)) (atan2Err b32 + u + 36 * w) := by
  obtain ⟨u0, w0⟩ := h.nonneg
  have hb := tan_eighth_bounds
  have hh := abs_le.1 hhi
  have hW1 : (41 / 100 : ℝ) ≤ hi.val := by norm_num at *; linarith
  have hW2 : (hi.val : ℝ) ≤ 42 / 100 := by norm_num at *; linarith
  have hq : 41 / 100 ≤ hi.val ∧ hi.val ≤ 42 / 100 := ⟨by have := hW1; rw [← Rat.cast_le (K := ℝ)]; push_cast; exact this, by rw [← Rat.cast_le (K := ℝ)]; push_cast; exact hW2⟩
  have hloR : (lo.val : ℝ) = -hi.val := by rw [hlo]; push_cast; rfl
  set W : ℝ := (hi.val : ℝ) with hWdef
  have main : ∀ (N n : ℕ) (ε : ℚ), N ≤ 35 → (N + 1) % 2 = 0 → shippedTerms "atan2" b32 = N + 1 → configDigits b32 = n → Atan2Ok N n ε → (0 : ℚ) ≤ ε →
      (45 / 100 : ℝ) + 2 * (ε + 5 / 4 * (42 / 100) ^ (N + 2) / (N + 2)) * ((24143 / 10000) ^ (N + 1) / (14142 / 10000)) ≤ 52 / 100 →
      ∃ e, polynomialCode ext fx b32 .atan2 lo hi = .ok e ∧ ∀ F calls, Approximates (realInterp F calls) "z" e.toR Real.arctan
        (Set.Icc (-(W + 11 / 10 ^ 17)) (W + 11 / 10 ^ 17)) (ε + 116 / 10 ^ 16 + u + 36 * w) := by
    intro N n ε hN hodd hk hn hok hε hA
    obtain ⟨r, terms, h1, h2, h3, h4⟩ := atan2_terms ext hs hf N n hodd ε hok lo hi hlo hq
    have hWN : (52 / 100 : ℝ) ≤ 10 ^ 30 * W ^ N := by
      have : (2 / 5 : ℝ) ^ 35 ≤ W ^ N :=
        (pow_le_pow_of_le_one (by norm_num) (by norm_num) hN).trans (pow_le_pow_left₀ (by norm_num) (by linarith) N)
      have h2 : (52 / 100 : ℝ) ≤ 10 ^ 30 * (2 / 5) ^ 35 := by norm_num
      linarith [mul_le_mul_of_nonneg_left this (by norm_num : (0 : ℝ) ≤ 10 ^ 30)]
    have hW0 : 0 < W := by linarith
    have hgrow : (1 + 11 / 10 ^ 17 / W) ^ N ≤ 2 := by
      have h1 : 11 / 10 ^ 17 / W ≤ 1 / 10 ^ 10 := by
        rw [div_le_iff₀ hW0]
        have : (11 : ℝ) / 10 ^ 17 ≤ 1 / 10 ^ 10 * (41 / 100) := by norm_num
        nlinarith
      have h0 : 0 ≤ 11 / 10 ^ 17 / W := by positivity
      refine (pow_le_pow_left₀ (by linarith) (by linarith : 1 + 11 / 10 ^ 17 / W ≤ 1 + 1 / 10 ^ 10) N).trans ?_
      refine (pow_le_pow_right₀ (by norm_num) hN).trans ?_
      norm_num
    obtain ⟨e, he, ha⟩ := h.polynomialCode_near (ext := ext) (δ := 11 / 10 ^ 17) (L := 1) .atan2 lo hi N hk (by rw [hn]; exact h1) h2 h3 hodd hloR rfl hW0 (by linarith) h4
      (nearPoly_arctan_odd N hodd hW0 hW2) (by positivity) hA hWN (by positivity) hgrow
      (fun x c _ _ hxc => (arctan_nonexpansive c x).trans (by rw [abs_sub_comm]; linarith))
    refine ⟨e, he, fun F calls => (ha F calls).mono le_rfl ?_⟩
    have hN' : (N : ℝ) ≤ 35 := by exact_mod_cast hN
    have hN0 : (0 : ℝ) ≤ N := by positivity
    have e1 : 2 * N / W ≤ 171 := by
      rw [div_le_iff₀ hW0]; nlinarith
    have e5 : w * (N + 1) ≤ 36 * w := by nlinarith
    have e2 : (1 + u) * (52 / 100) + w * (N + 1) ≤ 61 / 100 := by linarith
    have e3 : 0 ≤ (1 + u) * (52 / 100) + w * (N + 1) := by positivity
    have e4 : 2 * N / W * ((1 + u) * (52 / 100) + w * (N + 1)) ≤ 171 * (61 / 100) := mul_le_mul e1 e2 e3 (by norm_num)
    have e6 : 11 / 10 ^ 17 * (2 * N / W * ((1 + u) * (52 / 100) + w * (N + 1)) + 1) ≤ 116 / 10 ^ 16 := by
      have : (11 : ℝ) / 10 ^ 17 * (171 * (61 / 100) + 1) ≤ 116 / 10 ^ 16 := by norm_num
      refine le_trans ?_ this
      gcongr
    linarith
  have hsub : Set.Icc (-(Real.tan (Real.pi / 8) + 1 / 10 ^ 17)) (Real.tan (Real.pi / 8) + 1 / 10 ^ 17) ⊆ Set.Icc (-(W + 11 / 10 ^ 17)) (W + 11 / 10 ^ 17) := by
    have : Real.tan (Real.pi / 8) + 1 / 10 ^ 17 ≤ W + 11 / 10 ^ 17 := by
      have : (11 : ℝ) / 10 ^ 17 = 1 / 10 ^ 16 + 1 / 10 ^ 17 := by norm_num
      linarith
    exact Set.Icc_subset_Icc (by linarith) this
  cases b32 with
  | true =>
    obtain ⟨e, h1, h2⟩ := main 15 20 (4 / 10 ^ 12) (by norm_num) rfl (by decide) rfl C81_atan2_shipped.1 (by norm_num) (by norm_num)
    exact ⟨e, h1, fun F calls => (h2 F calls).mono hsub (by simp only [atan2Err, if_true]; push_cast; norm_num)⟩
  | false =>
    obtain ⟨e, h1, h2⟩ := main 35 40 (5 / 10 ^ 26) (by norm_num) rfl (by decide) rfl C81_atan2_shipped.2 (by norm_num) (by norm_num)
    exact ⟨e, h1, fun F calls => (h2 F calls).mono hsub (by simp only [atan2Err, if_false, Bool.false_eq_true]; push_cast; norm_num)⟩

/-- **C82** `atan2` as the program ships it, at every point but the origin, for bounds that are the tangent of `π/8` in double precision. -/
theorem C82_atan2 (hs : SqrtOk ext) (hf : 20 ≤ ext.fuel) (h : FloatOk fx b32 u w) (hu : u ≤ 1 / 10) (hw : w ≤ 1 / 1000) (lo hi : Dec) (hlo : lo.val = -hi.val)
    (hhi : |(hi.val : ℝ) - Real.tan (Real.pi / 8)| ≤ 1 / 10 ^ 16) :
    ∃ e, polynomialCode ext fx b32 .atan2 lo hi = .ok e ∧
    ∀ (F : FloatFmt) (calls : String → List RV → RV) (g : Name → RV), DeclaredConsts ext b32 F calls g →
      ∀ x y : ℝ, x ≠ 0 ∨ y ≠ 0 → ∃ a, (Gen.atan2 e.toR).apply (realInterp F calls) g [.f y, .f x] = .f a ∧
        |a - Complex.arg (x + y * Complex.I)| ≤ atan2Err b32 + u + 36 * w + 4 * constErr b32 := by
  obtain ⟨e, h1, h2⟩ := atan2_code (ext := ext) hs (by omega) h hu hw lo hi hlo hhi
  refine ⟨e, h1, fun F calls g hg x y hxy => ?_⟩
  have hpi := Real.pi_pos
  have hb := tan_eighth_bounds
  have hκ : constErr b32 ≤ 1 / 10 ^ 18 := (constErr_le b32).trans (by norm_num)
  obtain ⟨k, hk, hk'⟩ := hg.get hs hf (name := "PI") (m := Real.pi) (by simp [constMeaning])
  obtain ⟨c, hc, hc'⟩ := hg.get hs hf (name := "PI_BY_2") (m := Real.pi / 2) (by simp [constMeaning])
  obtain ⟨q, hq, hq'⟩ := hg.get hs hf (name := "PI_BY_8") (m := Real.pi / 8) (by simp [constMeaning])
  obtain ⟨T, hT, hT'⟩ := hg.get hs hf (name := "TAN_PI_BY_8") (m := Real.tan (Real.pi / 8)) (by simp [constMeaning])
  have h8 : (8 : ℝ) / 10 ^ 18 ≤ 1 / 10 ^ 17 := by norm_num
  have hTb := abs_le.1 (hT'.trans hκ)
  have hT0 : (0 : ℝ) ≤ T := by norm_num at *; linarith
  obtain ⟨a, ha, he⟩ := C52_atan2_const hk hc hq hT hT0 (V := Real.tan (Real.pi / 8) + 1 / 10 ^ 17) (by linarith)
    (by
      have ht := tan_eighth
      rw [eq_div_iff (by linarith)] at ht
      rw [div_le_iff₀ (by linarith)]
      set t := Real.tan (Real.pi / 8)
      nlinarith) (h2 F calls) x y hxy
  refine ⟨a, ha, he.trans ?_⟩
  have h3 := arctan_nonexpansive (Real.tan (Real.pi / 8)) T
  rw [Real.arctan_tan (by linarith) (by linarith), abs_sub_comm _ T] at h3
  have h4 := abs_sub_le q (Real.pi / 8) (Real.arctan T)
  linarith

end

/-! ## The hypotheses can be met

A format in which every decimal is a float, and the constants as declared. -/

/-- Decimals as bit patterns of a format without rounding. -/
def wideFx : FloatExt where
  toF32 d := some (Encodable.encode (d.int, d.scale))
  toF64 d := some (Encodable.encode (d.int, d.scale))
  litF32 n := match Encodable.decode (α := ℤ × ℤ) n with
    | some p => .ok (exprOfDec ⟨p.1, p.2⟩)
    | none => .panic
  litF64 n := match Encodable.decode (α := ℤ × ℤ) n with
    | some p => .ok (exprOfDec ⟨p.1, p.2⟩)
    | none => .panic

theorem wideFx_ok (b32 : Bool) : FloatOk wideFx b32 0 0 where
  nonneg := ⟨le_rfl, le_rfl⟩
  lit d _ := by
    refine ⟨_, _, exprOfDec d, d.val, rfl, rfl, by cases b32 <;> simp only [wideFx, Encodable.encodek, if_true, if_false, Bool.false_eq_true], ?_, by simp⟩
    rintro I ⟨F, calls, rfl⟩ env
    have : litValue (.float (displayDec d) "") = some d.val := by
      have := canon_parse d
      rw [litValue]
      simpa using this
    simp [exprOfDec, Expr.toR, RExpr.denote, realInterp, litRV, this]

/-- The constants as declared in the generated code. -/
noncomputable def declared (b32 : Bool) (F : FloatFmt) (n : Name) : RV :=
  match constSource.find? (fun p => [p.1] == n) with
  | some p => match eval goodExt (configDigits b32) p.2 with
    | .ok (.lit l) => (RExpr.lit l).denote (realInterp F fun _ _ => .junk) fun _ => .junk
    | _ => .junk
  | none => .junk

theorem declared_ok (b32 : Bool) (F : FloatFmt) (calls : String → List RV → RV) : DeclaredConsts goodExt b32 F calls (declared b32 F) := by
  intro p hp
  have h := C69_constants_in_code goodExt_ok (by decide) b32 F calls (declared b32 F)
  obtain ⟨l, h1⟩ : ∃ l, eval goodExt (configDigits b32) p.2 = .ok (.lit l) := by
    obtain ⟨q, -, -, l, -, h2, -⟩ := forall2_get h.flip hp
    exact ⟨l, h2⟩
  refine ⟨l, h1, ?_⟩
  have h2 : constSource.find? (fun q => [q.1] == [p.1]) = some p := by
    unfold constSource at hp ⊢
    fin_cases hp <;> rfl
  rw [declared, h2]
  simp only [h1]
  rfl

example : ∃ e, polynomialCode goodExt wideFx false .sin ⟨-5, 1⟩ ⟨5, 1⟩ = .ok e ∧
    ∃ y, (Gen.sin e.toR).apply (realInterp .f64 (demoCalls .f64 (declared false .f64) demoTrig)) (declared false .f64) [.f 100] = .f y ∧
      |y - Real.sin 100| ≤ 5 / 10 ^ 19 := by
  obtain ⟨e, h1, h2⟩ := C82_sin goodExt_ok (by decide) (wideFx_ok false)
  refine ⟨e, h1, ?_⟩
  have hw : FloatFmt.f64.width - 1 = 63 := rfl
  obtain ⟨y, hy, he⟩ := h2 .f64 _ _ (demo_linked _ _ _) (declared_ok _ _ _) 100 (by rw [abs_of_pos (by norm_num), hw]; norm_num)
  refine ⟨y, hy, he.trans ?_⟩
  simp only [sinErr, constErr, configDigits, Bool.false_eq_true, if_false, abs_of_pos (by norm_num : (0 : ℝ) < 100)]
  norm_num

end Verif

import Verif.Model.TestSpecs
import Verif.Props.Test
import Verif.Props.Quantile
import Verif.Props.Constants

/-! # C90: the tables of the accuracy tests -/

namespace Verif
open Bd Dec

/-- What is asked of the conversions between decimals and floats: up to 100 they lose at most a millionth of the value
(and something tiny, for values that underflow), do not leave `[-1, 1]`, and give a decimal with digits after the point. -/
structure RoundsNear (ext : BdExt) : Prop where
  f32 : ∀ d : Dec, |d.val| ≤ 100 → ∃ b r, ext.toF32 d = some b ∧ ext.fromF32 b = some r ∧ |r.val - d.val| ≤ 1 / 10 ^ 6 * |d.val| + 1 / 10 ^ 37 ∧ (|d.val| ≤ 1 → |r.val| ≤ 1) ∧ 0 < r.scale
  f64 : ∀ d : Dec, |d.val| ≤ 100 → ∃ b r, ext.toF64 d = some b ∧ ext.fromF64 b = some r ∧ |r.val - d.val| ≤ 1 / 10 ^ 6 * |d.val| + 1 / 10 ^ 37 ∧ (|d.val| ≤ 1 → |r.val| ≤ 1) ∧ 0 < r.scale

section
variable {ext : BdExt} {n : ℕ}

theorem evals_round (hr : RoundsNear ext) (b32 : Bool) {e t : Expr} {d : Dec} (h1 : eval ext n e = .ok t) (h2 : exprToDec t = .ok d) (hd : |d.val| ≤ 100) :
    ∃ r : Dec, eval ext n (roundIeeeExpr e (if b32 then 32 else 64)) = .ok (exprOfDec r) ∧ |r.val - d.val| ≤ 1 / 10 ^ 6 * |d.val| + 1 / 10 ^ 37 ∧ (|d.val| ≤ 1 → |r.val| ≤ 1) ∧ 0 < r.scale := by
  obtain ⟨t2, d2, b1, b2, b3⟩ := evals_usize (ext := ext) (n := n) (if b32 then 32 else 64)
  have hv : (d2.val : ℝ) = ((if b32 then 32 else 64 : ℕ) : ℝ) := sub_eq_zero.1 (abs_eq_zero.1 (le_antisymm b3 (abs_nonneg _)))
  have hv' : d2.val = ((if b32 then 32 else 64 : ℕ) : ℚ) := by
    rw [← Rat.cast_natCast (α := ℝ)] at hv
    exact Rat.cast_injective hv
  cases b32 with
  | true =>
    obtain ⟨b, r, a1, a2, a3, a4⟩ := hr.f32 d hd
    refine ⟨r, eval_method1 h1 h2 b1 b2 ?_, a3, a4⟩
    show roundIeee ext d d2 n = _
    rw [(C34_accepts ext d d2 n).1 (by simpa using hv'), a1]
    simp only [a2]
  | false =>
    obtain ⟨b, r, a1, a2, a3, a4⟩ := hr.f64 d hd
    refine ⟨r, eval_method1 h1 h2 b1 b2 ?_, a3, a4⟩
    show roundIeee ext d d2 n = _
    rw [(C34_accepts ext d d2 n).2 (by simpa using hv'), a1]
    simp only [a2]

theorem natText_ne (k : ℕ) : natText k ≠ [] := by
  unfold natText
  split
  · simp
  · simp [Nat.digits_ne_nil_iff_ne_zero, *]

/-- A decimal with digits after the point is written with a point. -/
theorem point_of_scale {d : Dec} (h : 0 < d.scale) : '.' ∈ displayDec d := by
  have h2 : (displayParts d).2 ≠ [] := by
    have hn := natText_ne d.int.natAbs
    unfold displayParts
    simp only
    split
    · simp [hn]
    · rename_i h1
      rw [if_neg (by omega)]
      simp only [ne_eq, List.drop_eq_nil_iff, not_le]
      omega
  unfold displayDec
  simp only [if_neg h2]
  split <;> simp

theorem scale_sub_ge (a b : Dec) : b.scale ≤ (a - b).scale := by
  show b.scale ≤ (Dec.sub a b).scale
  unfold Dec.sub
  split
  · simp only; omega
  · split
    · exact le_rfl
    · simp only; omega

theorem canon_scale {d : Dec} (h : 0 < d.scale) : 0 < (canon d).scale := by
  rw [canon, if_pos h.le]; exact h

theorem round_zero_val {d : Dec} (h : d.val = 0) : (round d n).val = 0 := by
  rw [val_round (by omega), h]; simp [rndAway]; norm_num

theorem exact_val {d : Dec} {q : ℚ} (h : |(d.val : ℝ) - q| ≤ 0) : d.val = q := by
  have := sub_eq_zero.1 (abs_eq_zero.1 (le_antisymm h (abs_nonneg _)))
  exact_mod_cast this

/-- The first sample point is the lower end. -/
theorem first_point {tmin tmax : Expr} {a b εa εb : ℝ} (ha : EvalsTo ext n tmin a εa) (hb : EvalsTo ext n tmax b εb) (N : ℕ) (hN : 0 < N) :
    EvalsTo ext n (samplePoint tmin tmax N 0) a εa := by
  have hz : EvalsTo ext n (.binary (usizeLit 0) .mul (.paren (.binary (.paren tmax) .sub (.paren tmin)))) 0 0 := by
    obtain ⟨t₁, d₁, a1, a2, a3⟩ := evals_usize (ext := ext) (n := n) 0
    obtain ⟨t₂, d₂, b1, b2, b3⟩ := C67_paren (C67_sub (C67_paren hb) (C67_paren ha))
    refine ⟨_, _, by rw [eval_binary a1 b1 a2 b2]; rfl, exprToDec_exprOfDec _, ?_⟩
    have h0 : d₁.val = 0 := exact_val (by simpa using a3)
    rw [val_canon, round_zero_val (by rw [val_mul, h0, zero_mul])]; simp
  have hq : EvalsTo ext n (.binary (.binary (usizeLit 0) .mul (.paren (.binary (.paren tmax) .sub (.paren tmin)))) .div (.paren (usizeLit N))) 0 0 := by
    obtain ⟨t₁, d₁, a1, a2, a3⟩ := hz
    obtain ⟨t₂, d₂, b1, b2, b3⟩ := C67_paren (evals_usize (ext := ext) (n := n) N)
    have h0 : d₁.val = 0 := exact_val (by simpa using a3)
    have hN' : d₂.val = N := exact_val (by simpa using b3)
    obtain ⟨q, hq, he⟩ := (div_spec d₁ d₂).2 (by rw [hN']; exact_mod_cast hN.ne')
    rw [h0, zero_div, abs_zero, mul_zero, sub_zero] at he
    refine ⟨_, _, by rw [eval_binary a1 b1 a2 b2, evalBinop, hq]; rfl, exprToDec_exprOfDec _, ?_⟩
    rw [val_canon, round_zero_val (abs_eq_zero.1 (le_antisymm he (abs_nonneg _)))]; simp
  have h := C67_paren (C67_paren (C67_add hq (C67_paren ha)))
  rw [zero_add, zero_add] at h
  exact h

/-- A row, given that the reference can be evaluated wherever the sample may end up. -/
theorem row_ok (hr : RoundsNear ext) (b32 : Bool) {ref tmin tmax : Expr} (R : Expr → Expr)
    (hsub : ∀ e, subst ref (VariableList.new.addVar ["x"] e).1 = .ok (R e))
    {a b εa εb δ : ℝ} (ha : EvalsTo ext n tmin a εa) (hb : EvalsTo ext n tmax b εb) (h20 : 20 ≤ n) (hεa : εa ≤ 10 / 10 ^ n) (hεb : εb ≤ 10 / 10 ^ n)
    (ha5 : |a| ≤ 10) (hb5 : |b| ≤ 10) (hab : 1 / 4 ≤ b - a) (F : ℝ → ℝ) (N i : ℕ) (hN : N ≤ 1024) (hi : i < N) (hδ : δ ≤ 1)
    (href : ∀ (e : Expr) (q : ℚ), EvalsTo ext n e q 0 → a - 2 / 10 ^ 5 ≤ q → (q : ℝ) ≤ b + 2 / 10 ^ 5 → (-1 ≤ a → b ≤ 1 → εa = 0 → |(q : ℝ)| ≤ 1) →
      EvalsTo ext n (R e) (F q) δ ∧ |F q| ≤ 99) :
    ∃ dx dy de : Dec, sampleRow ext n (if b32 then 32 else 64) ref tmin tmax N i = .ok (exprOfDec dx, exprOfDec dy, exprOfDec de) ∧
      '.' ∈ displayDec dx ∧ '.' ∈ displayDec dy ∧ '.' ∈ displayDec de ∧
      |(dx.val : ℝ) - (a + i * (b - a) / N)| ≤ 2 / 10 ^ 5 ∧ |((dy.val + de.val : ℚ) : ℝ) - F dx.val| ≤ δ ∧
      |(de.val : ℝ)| ≤ 2 / 10 ^ 6 * (|F dx.val| + 1) ∧ |F dx.val| ≤ 99 ∧ |(dx.val : ℝ)| ≤ 12 := by
  have hw : (1 : ℝ) / 10 ^ n ≤ 1 / 10 ^ 20 := one_div_le_one_div_of_le (by positivity) (pow_le_pow_right₀ (by norm_num) h20)
  have hw0 : (0 : ℝ) < 1 / 10 ^ n := by positivity
  have e10 : (10 : ℝ) / 10 ^ n = 10 * (1 / 10 ^ n) := by ring
  rw [e10] at hεa hεb
  rw [abs_le] at ha5 hb5
  have hN0 : (0 : ℝ) < N := by exact_mod_cast (by omega : 0 < N)
  have hN1 : (N : ℝ) ≤ 1024 := by exact_mod_cast hN
  have hi0 : (0 : ℝ) ≤ i := by positivity
  have hi1 : (i : ℝ) + 1 ≤ N := by exact_mod_cast hi
  have hεa0 : 0 ≤ εa := by obtain ⟨_, _, _, _, h⟩ := ha; exact (abs_nonneg _).trans h
  -- the exact point
  have hp0 : a ≤ a + i * (b - a) / N := by
    have : 0 ≤ i * (b - a) / N := div_nonneg (mul_nonneg hi0 (by linarith)) hN0.le
    linarith
  have hstep : (i + 1) * (b - a) / N ≤ b - a := by
    rw [div_le_iff₀ hN0]
    nlinarith
  have hst : 1 / 4096 ≤ (b - a) / N := by
    rw [le_div_iff₀ hN0]; linarith
  have hp1 : a + i * (b - a) / N ≤ b - 1 / 4096 := by
    have : (i + 1) * (b - a) / N = i * (b - a) / N + (b - a) / N := by ring
    linarith
  -- the computed point
  obtain ⟨tp, dp, p1, p2, p3, p4⟩ : ∃ tp dp, eval ext n (samplePoint tmin tmax N i) = .ok tp ∧ exprToDec tp = .ok dp ∧
      |(dp.val : ℝ) - (a + i * (b - a) / N)| ≤ 1 / 10 ^ 10 ∧ (-1 ≤ a → b ≤ 1 → εa = 0 → |(dp.val : ℝ)| ≤ 1) := by
    have hb99 : (1 : ℝ) / 10 ^ 99 * |b - a| ≤ 1 / 10 ^ 90 := by
      have : |b - a| ≤ 20 := abs_le.2 ⟨by linarith, by linarith⟩
      calc (1 : ℝ) / 10 ^ 99 * |b - a| ≤ 1 / 10 ^ 99 * 20 := by gcongr
        _ ≤ _ := by norm_num
    have hsm : 4 * εa + 3 * εb + 2 * (1 / 10 ^ n) + 1 / 10 ^ 99 * |b - a| ≤ 1 / 10 ^ 10 := by
      have : (72 : ℝ) * (1 / 10 ^ 20) + 1 / 10 ^ 90 ≤ 1 / 10 ^ 10 := by norm_num
      linarith
    by_cases h0 : i = 0
    · subst h0
      obtain ⟨t, d, q1, q2, q3⟩ := first_point ha hb N (by omega)
      refine ⟨t, d, q1, q2, ?_, ?_⟩
      · rw [Nat.cast_zero, zero_mul, zero_div, add_zero]
        refine q3.trans ?_
        have : (10 : ℝ) * (1 / 10 ^ 20) ≤ 1 / 10 ^ 10 := by norm_num
        linarith
      · intro h1 h2 h3
        rw [h3] at q3
        have := sub_eq_zero.1 (abs_eq_zero.1 (le_antisymm q3 (abs_nonneg _)))
        rw [this]; exact abs_le.2 ⟨h1, by linarith⟩
    · obtain ⟨t, d, q1, q2, q3⟩ := C72_points ha hb N i (by omega) hi.le
      replace q3 := q3.trans hsm
      refine ⟨t, d, q1, q2, q3, fun h1 h2 _ => ?_⟩
      have hi1' : (1 : ℝ) ≤ i := by exact_mod_cast (by omega : 1 ≤ i)
      have : (b - a) / N ≤ i * (b - a) / N := by
        rw [mul_div_assoc]
        nlinarith [div_nonneg (show 0 ≤ b - a by linarith) hN0.le]
      have e10' : (1 : ℝ) / 10 ^ 10 ≤ 1 / 4096 := by norm_num
      rw [abs_le] at q3 ⊢
      constructor <;> linarith [q3.1, q3.2]
  have hdp : |(dp.val : ℝ)| ≤ 11 := by
    have : (1 : ℝ) / 10 ^ 10 ≤ 1 := by norm_num
    rw [abs_le] at p3 ⊢
    constructor <;> linarith [p3.1, p3.2]
  obtain ⟨dx, x1, x2, x3, x4⟩ := evals_round hr b32 p1 p2 (by have := hdp.trans (by norm_num : (11 : ℝ) ≤ 100); exact_mod_cast this)
  have x2' : |(dx.val : ℝ) - dp.val| ≤ 1.2 / 10 ^ 5 := by
    have h : ((|dx.val - dp.val| : ℚ) : ℝ) ≤ ((1 / 10 ^ 6 * |dp.val| + 1 / 10 ^ 37 : ℚ) : ℝ) := (Rat.cast_le (K := ℝ)).2 x2
    push_cast at h
    refine h.trans ?_
    calc (1 : ℝ) / 10 ^ 6 * |(dp.val : ℝ)| + 1 / 10 ^ 37 ≤ 1 / 10 ^ 6 * 11 + 1 / 10 ^ 37 := by gcongr
      _ ≤ _ := by norm_num
  have hx : |(dx.val : ℝ) - (a + i * (b - a) / N)| ≤ 2 / 10 ^ 5 := by
    refine (near_trans x2' p3).trans (by norm_num)
  have hxE : EvalsTo ext n (roundIeeeExpr (samplePoint tmin tmax N i) (if b32 then 32 else 64)) dx.val 0 :=
    ⟨_, _, x1, exprToDec_exprOfDec _, by rw [val_canon]; simp⟩
  obtain ⟨⟨t, d, r1, r2, r3⟩, r4⟩ := href _ dx.val hxE (by linarith [(abs_le.1 hx).1]) (by linarith [(abs_le.1 hx).2]) (by
    intro h1 h2 h3
    have := p4 h1 h2 h3
    have h4 := x3 (by exact_mod_cast this)
    exact_mod_cast h4)
  have hd100 : |(d.val : ℝ)| ≤ 100 := abs_le_of_near r3 (by linarith)
  have htt : eval ext n t = .ok t := by
    rcases eval_shape (ext := ext) (n : ℤ) _ _ r1 with h | ⟨b, f, rfl⟩
    · exact h
    · simp [exprToDec] at r2
  obtain ⟨dy, y1, y2, _, y4⟩ := evals_round hr b32 htt r2 (by exact_mod_cast hd100)
  have hye : eval ext n (.binary t .sub (roundIeeeExpr t (if b32 then 32 else 64))) = .ok (exprOfDec (d - canon dy)) := by
    rw [eval_binary htt y1 r2 (exprToDec_exprOfDec _)]; rfl
  refine ⟨dx, dy, d - canon dy, ?_, point_of_scale x4, point_of_scale y4, point_of_scale ?_, hx, ?_, ?_, r4, abs_le_of_near x2' (by linarith [(by norm_num : (1.2 : ℝ) / 10 ^ 5 ≤ 1)])⟩
  · simp only [sampleRow, x1, Res.unwrap, Res.ok_bind, hsub, r1, y1, hye]; rfl
  · exact lt_of_lt_of_le (canon_scale y4) (scale_sub_ge _ _)
  · rw [Dec.val_sub, val_canon]; push_cast
    rw [show (dy.val : ℝ) + (d.val - dy.val) = d.val by ring]
    exact r3
  · rw [Dec.val_sub, val_canon]; push_cast
    have h : ((|dy.val - d.val| : ℚ) : ℝ) ≤ ((1 / 10 ^ 6 * |d.val| + 1 / 10 ^ 37 : ℚ) : ℝ) := (Rat.cast_le (K := ℝ)).2 y2
    push_cast at h
    rw [abs_sub_comm] at h
    have h2 : |(d.val : ℝ)| ≤ |F dx.val| + 1 := by
      have := abs_sub_abs_le_abs_sub (d.val : ℝ) (F dx.val)
      linarith
    have h3 := abs_nonneg (F dx.val)
    have h4 : (1 : ℝ) / 10 ^ 37 ≤ 1 / 10 ^ 6 := by norm_num
    calc |(d.val : ℝ) - dy.val| ≤ 1 / 10 ^ 6 * |(d.val : ℝ)| + 1 / 10 ^ 37 := h
      _ ≤ 1 / 10 ^ 6 * (|F dx.val| + 1) + 1 / 10 ^ 6 * 1 := by rw [mul_one]; gcongr
      _ ≤ 1 / 10 ^ 6 * (|F dx.val| + 1) + 1 / 10 ^ 6 * (|F dx.val| + 1) := by gcongr; linarith
      _ = _ := by ring

/-! ## The references -/

/-- What the sample may be evaluated to at a point that is known exactly. -/
def RefOk (ext : BdExt) (n : ℕ) (R : Expr → Expr) (F : ℝ → ℝ) (e : Expr) (q : ℚ) : Prop :=
  EvalsTo ext n (R e) (F q) (5200 / 10 ^ n) ∧ |F q| ≤ 99

theorem refOk_of {R : Expr → Expr} {F : ℝ → ℝ} {e : Expr} {q : ℚ} {k : ℝ} (h : EvalsTo ext n (R e) (F q) (k * (1 / 10 ^ n))) (hk : k ≤ 5200) (hF : |F q| ≤ 99) :
    RefOk ext n R F e q := by
  refine ⟨h.mono ?_, hF⟩
  rw [show (5200 : ℝ) / 10 ^ n = 5200 * (1 / 10 ^ n) by ring]
  gcongr

section refs
variable (h20 : 20 ≤ n) (h40 : n ≤ 40) {e : Expr} {q : ℚ} (he : EvalsTo ext n e q 0)
include he

theorem ref_id (hq : |(q : ℝ)| ≤ 11) : RefOk ext n (fun e => e) (fun x => x) e q :=
  refOk_of (k := 0) (he.mono (by simp)) (by norm_num) (by linarith)

include h20 h40

theorem ref_asin (hs : SqrtOk ext) (hf : 600 ≤ ext.fuel) (hq : |(q : ℝ)| ≤ 1) : RefOk ext n (fun e => .methodCall e "asin" []) Real.arcsin e q := by
  refine refOk_of (k := 1) ((C67_asin hs (by omega) he (.inr ⟨rfl, hq⟩) (by omega) (by omega)).mono (by simp)) (by norm_num) ?_
  have := Real.pi_lt_four
  rw [abs_le]
  constructor <;> linarith [Real.arcsin_le_pi_div_two (q : ℝ), Real.neg_pi_div_two_le_arcsin (q : ℝ)]

theorem ref_acos (hs : SqrtOk ext) (hf : 600 ≤ ext.fuel) (hq : |(q : ℝ)| ≤ 1) : RefOk ext n (fun e => .methodCall e "acos" []) Real.arccos e q := by
  refine refOk_of (k := 1) ((C67_acos hs (by omega) he (.inr ⟨rfl, hq⟩) (by omega) (by omega)).mono (by simp)) (by norm_num) ?_
  have := Real.pi_lt_four
  rw [abs_le]
  constructor <;> linarith [Real.arccos_le_pi (q : ℝ), Real.arccos_nonneg (q : ℝ)]

theorem ref_exp2 (hf : 600 ≤ ext.fuel) (hq : |(q : ℝ)| ≤ 1.1) : RefOk ext n (fun e => .methodCall e "exp2" []) (fun x => (2 : ℝ) ^ x) e q := by
  obtain ⟨u0, u1, w1⟩ := unit_facts (n := n) (by omega) (by omega)
  have l2 := log_two_bounds
  have hf' : (600 : ℝ) ≤ ext.fuel := by exact_mod_cast hf
  have arg2 : LnArg ext 2 0 := lnArg_exact (by norm_num) (by rw [abs_of_pos (by linarith)]; linarith)
  have hp : powErr n 2 0 q 0 ≤ 5 * (1 / 10 ^ n) := by
    unfold powErr
    rw [mul_zero, zero_mul, add_zero, add_zero]
    have h0 := lnErr_two (n := n)
    have h1 : 0 ≤ lnErr n 2 0 := by unfold lnErr; simp only [zero_div, add_zero]; positivity
    calc |(q : ℝ)| * lnErr n 2 0 ≤ 1.1 * (4.5 * (1 / 10 ^ n)) := by gcongr
      _ ≤ _ := by linarith
  have hz : |(q : ℝ) * Real.log 2| ≤ 0.8 := by
    rw [abs_mul, abs_of_pos (show 0 < Real.log 2 by linarith)]
    calc |(q : ℝ)| * Real.log 2 ≤ 1.1 * 0.7 := by gcongr; linarith
      _ ≤ _ := by norm_num
  refine refOk_of (k := 20) ((C67_exp2 he arg2 (B := 1) le_rfl (by omega) (by omega) ?_).mono ?_) (by norm_num) ?_
  · have : (5 : ℝ) * (1 / 10 ^ 10) ≤ 0.1 := by norm_num
    push_cast; linarith
  · have he1 := Real.exp_one_lt_d9
    rw [Nat.cast_one]
    calc 1 / 10 ^ n + Real.exp 1 * powErr n 2 0 q 0 ≤ 1 / 10 ^ n + 3 * (5 * (1 / 10 ^ n)) := by
          have : 0 ≤ 5 * ((1 : ℝ) / 10 ^ n) := by positivity
          have := mul_le_mul (show Real.exp 1 ≤ 3 by linarith) hp (by unfold powErr lnErr; positivity) (by norm_num)
          linarith
      _ ≤ _ := by linarith
  · rw [abs_of_pos (by positivity)]
    calc (2 : ℝ) ^ (q : ℝ) ≤ 2 ^ (2 : ℝ) := Real.rpow_le_rpow_of_exponent_le (by norm_num) (by linarith [(abs_le.1 hq).2])
      _ ≤ 99 := by norm_num

omit h20 h40 he in
theorem exp_three : Real.exp 3 ≤ 30 := by
  have he1 := Real.exp_one_lt_d9
  rw [show (3 : ℝ) = (3 : ℕ) * 1 by norm_num, Real.exp_nat_mul]
  calc Real.exp 1 ^ 3 ≤ 3 ^ 3 := by gcongr; linarith
    _ ≤ 30 := by norm_num

theorem ref_exp (hq : |(q : ℝ)| ≤ 2.1) : RefOk ext n (fun e => .methodCall e "exp" []) Real.exp e q := by
  refine refOk_of (k := 1) ((C67_exp he (B := 3) (by norm_num) (by push_cast; linarith) (by omega) (by omega)).mono (by simp)) (by norm_num) ?_
  rw [abs_of_pos (Real.exp_pos _)]
  have : Real.exp q ≤ Real.exp 3 := Real.exp_le_exp.2 (by linarith [(abs_le.1 hq).2])
  linarith [exp_three]

theorem ref_expm1 (hq : |(q : ℝ)| ≤ 2.1) : RefOk ext n (fun e => .binary (.methodCall e "exp" []) .sub (litInt "1")) (fun x => Real.exp x - 1) e q := by
  refine refOk_of (k := 1) ((C67_sub (C67_exp he (B := 3) (by norm_num) (by push_cast; linarith) (by omega) (by omega)) one_int).mono (by simp)) (by norm_num) ?_
  have : Real.exp q ≤ Real.exp 3 := Real.exp_le_exp.2 (by linarith [(abs_le.1 hq).2])
  have := Real.exp_pos (q : ℝ)
  rw [abs_le]
  constructor <;> linarith [exp_three]

omit h20 h40 he in
theorem log_abs_le {v : ℝ} (h0 : 0.09 ≤ v) (h1 : v ≤ 11) : |Real.log v| ≤ 3 := by
  have he1 := Real.exp_one_gt_d9
  have e3 : 12 ≤ Real.exp 3 := by
    rw [show (3 : ℝ) = (3 : ℕ) * 1 by norm_num, Real.exp_nat_mul]
    calc (12 : ℝ) ≤ 2.7 ^ 3 := by norm_num
      _ ≤ _ := by gcongr; linarith
  rw [abs_le]
  constructor
  · rw [Real.le_log_iff_exp_le (by linarith), Real.exp_neg]
    calc (Real.exp 3)⁻¹ ≤ 12⁻¹ := inv_anti₀ (by norm_num) e3
      _ ≤ 0.09 := by norm_num
      _ ≤ v := h0
  · rw [Real.log_le_iff_le_exp (by linarith)]; linarith

omit h20 h40 he in
theorem lnErr_exact {v : ℝ} (hv : |Real.log v| ≤ 3) : lnErr n v 0 ≤ 16 * (1 / 10 ^ n) := by
  unfold lnErr
  rw [zero_div, add_zero, add_zero]
  gcongr
  linarith

omit h20 h40 he in
theorem lnArg_small (hf : 600 ≤ ext.fuel) {v : ℝ} (h0 : 0 < v) (hv : |Real.log v| ≤ 3) : LnArg ext v 0 := by
  have hf' : (600 : ℝ) ≤ ext.fuel := by exact_mod_cast hf
  exact lnArg_exact h0 (by linarith)

theorem ref_ln (hf : 600 ≤ ext.fuel) (h0 : 0.09 ≤ (q : ℝ)) (h1 : (q : ℝ) ≤ 11) : RefOk ext n (fun e => .methodCall e "ln" []) Real.log e q := by
  have hl := log_abs_le h0 h1
  refine refOk_of (k := 16) ((C67_ln he (by linarith) (by omega) (by omega) (lnArg_small hf (by linarith) hl).fuel).mono ?_) (by norm_num) (by linarith)
  exact lnErr_exact hl

theorem ref_ln1p (hf : 600 ≤ ext.fuel) (h0 : -0.91 ≤ (q : ℝ)) (h1 : (q : ℝ) ≤ 10) :
    RefOk ext n (fun e => .methodCall (.paren (.binary (litInt "1") .add e)) "ln" []) (fun x => Real.log (1 + x)) e q := by
  have hl := log_abs_le (v := 1 + q) (by linarith) (by linarith)
  have hE : EvalsTo ext n (.paren (.binary (litInt "1") .add e)) (1 + q) 0 := (C67_paren (C67_add one_int he)).mono (by simp)
  refine refOk_of (k := 16) ((C67_ln hE (by linarith) (by omega) (by omega) (lnArg_small hf (by linarith) hl).fuel).mono ?_) (by norm_num) (by linarith)
  exact lnErr_exact hl

omit h20 h40 he in
theorem logb_abs {b v : ℝ} (hb : 0.69 ≤ Real.log b) (hv : |Real.log v| ≤ 3) : |Real.logb b v| ≤ 5 := by
  rw [Real.logb, abs_div, abs_of_pos (show 0 < Real.log b by linarith), div_le_iff₀ (by linarith)]
  linarith

omit he in
theorem log_err {b v : ℝ} (hb : 0.69 ≤ Real.log b) (hb3 : |Real.log b| ≤ 3) (hv : |Real.log v| ≤ 3) :
    (1 + 1 / 10 ^ 99) * (2 * (lnErr n v 0 + |Real.logb b v| * lnErr n b 0) / |Real.log b|) + 1 / 10 ^ 99 * |Real.logb b v| ≤ 300 * (1 / 10 ^ n) := by
  obtain ⟨u0, u1, w1⟩ := unit_facts (n := n) (by omega) (by omega)
  have hq := logb_abs hb hv
  have E1 := lnErr_exact (n := n) hv
  have E2 := lnErr_exact (n := n) hb3
  have p1 : 0 ≤ lnErr n v 0 := by unfold lnErr; simp only [zero_div, add_zero]; positivity
  have p2 : 0 ≤ lnErr n b 0 := by unfold lnErr; simp only [zero_div, add_zero]; positivity
  rw [abs_of_pos (show 0 < Real.log b by linarith)]
  have hw0 : (0 : ℝ) ≤ 1 / 10 ^ 99 := by positivity
  have hw2 : (1 : ℝ) / 10 ^ 99 ≤ 1 / 100 := by norm_num
  generalize (1 : ℝ) / 10 ^ n = u at *
  generalize (1 : ℝ) / 10 ^ 99 = w at *
  generalize lnErr n v 0 = a at *
  generalize lnErr n b 0 = c at *
  have q0 := abs_nonneg (Real.logb b v)
  calc (1 + w) * (2 * (a + |Real.logb b v| * c) / Real.log b) + w * |Real.logb b v|
      ≤ (1 + 1 / 100) * (2 * (16 * u + 5 * (16 * u)) / 0.69) + 1 / 100 * u * 5 := by gcongr
    _ = (1.01 * (2 * 96 / 0.69) + 0.05) * u := by ring
    _ ≤ _ := by gcongr; norm_num

omit he in
theorem log_half {b : ℝ} (hb : 0.69 ≤ Real.log b) (hb3 : |Real.log b| ≤ 3) : lnErr n b 0 ≤ |Real.log b| / 2 := by
  obtain ⟨u0, u1, w1⟩ := unit_facts (n := n) (by omega) (by omega)
  refine (lnErr_exact hb3).trans ?_
  rw [abs_of_pos (show 0 < Real.log b by linarith)]
  have : (16 : ℝ) * (1 / 10 ^ 10) ≤ 0.3 := by norm_num
  linarith

omit h20 h40 he in
theorem log_ten : 0.69 ≤ Real.log 10 ∧ |Real.log 10| ≤ 3 :=
  ⟨log_two_bounds.1.trans (Real.log_le_log (by norm_num) (by norm_num)), log_abs_le (by norm_num) (by norm_num)⟩

omit h20 h40 he in
theorem log_two' : 0.69 ≤ Real.log 2 ∧ |Real.log 2| ≤ 3 := ⟨log_two_bounds.1, log_abs_le (by norm_num) (by norm_num)⟩

theorem ref_log2 (hf : 600 ≤ ext.fuel) (h0 : 0.09 ≤ (q : ℝ)) (h1 : (q : ℝ) ≤ 11) : RefOk ext n (fun e => .methodCall e "log2" []) (Real.logb 2) e q := by
  have hl := log_abs_le h0 h1
  have l2 := log_two'
  exact refOk_of (k := 300) ((C67_log2 he (lnArg_small hf (by linarith) hl) (lnArg_small hf (by norm_num) l2.2) (by omega) (by omega) (log_half h20 h40 l2.1 l2.2)).mono
    (log_err h20 h40 l2.1 l2.2 hl)) (by norm_num) ((logb_abs l2.1 hl).trans (by norm_num))

theorem ref_log10 (hf : 600 ≤ ext.fuel) (h0 : 0.09 ≤ (q : ℝ)) (h1 : (q : ℝ) ≤ 11) : RefOk ext n (fun e => .methodCall e "log10" []) (Real.logb 10) e q := by
  have hl := log_abs_le h0 h1
  have l2 := log_ten
  exact refOk_of (k := 300) ((C67_log10 he (lnArg_small hf (by linarith) hl) (lnArg_small hf (by norm_num) l2.2) (by omega) (by omega) (log_half h20 h40 l2.1 l2.2)).mono
    (log_err h20 h40 l2.1 l2.2 hl)) (by norm_num) ((logb_abs l2.1 hl).trans (by norm_num))

omit h20 h40 he in
theorem zero_int : EvalsTo ext n (litInt "0") ((0 : ℚ) : ℝ) 0 := by simpa using evals_int "0" 0 rfl
omit h20 h40 he in
theorem one_int' : EvalsTo ext n (litInt "1") ((1 : ℚ) : ℝ) 0 := by simpa using evals_int "1" 1 rfl

theorem ref_dnorm (hs : SqrtOk ext) (hf : 600 ≤ ext.fuel) (hq : |(q : ℝ)| ≤ 1.1) :
    RefOk ext n (fun e => .methodCall e "dnorm" [litInt "0", litInt "1"]) normalPdf e q := by
  have hB : ((q - 0) / 1 : ℚ) ^ 2 ≤ (2 : ℕ) := by
    have : (q : ℝ) ^ 2 ≤ 2 := by rw [← sq_abs]; nlinarith [abs_nonneg (q : ℝ)]
    rw [sub_zero, div_one]
    exact_mod_cast this
  have h := (C67_normal hs (by omega) he zero_int one_int' (B := 2) (by norm_num) (by norm_num) hB (by omega) (by omega)).2
  rw [Rat.cast_zero, Rat.cast_one, sub_zero, div_one, div_one, abs_one, div_one] at h
  exact refOk_of h (by norm_num) (by rw [abs_of_pos (normalPdf_pos _)]; linarith [normalPdf_le_half (q : ℝ)])

omit h20 h40 he in
/-- The quantile exists. -/
theorem quantile_exists {x : ℝ} (h0 : 6 / 10 ^ 5 ≤ x) (h1 : x ≤ 1 - 6 / 10 ^ 5) : ∃ t, |t| ≤ 4 ∧ normalCdf t = x := by
  have hc : Continuous normalCdf := continuous_iff_continuousAt.2 fun u => (hasDerivAt_normalCdf u).continuousAt
  have h4 := normalCdf_four
  have h4' : normalCdf (-4) ≤ 0.00005 := by rw [normalCdf_neg]; linarith
  obtain ⟨t, ht, hx⟩ := intermediate_value_Icc (show (-4 : ℝ) ≤ 4 by norm_num) hc.continuousOn ⟨h4'.trans (by linarith), (show x ≤ normalCdf 4 by linarith)⟩
  exact ⟨t, abs_le.2 ht, hx⟩

theorem ref_qnorm (hs : SqrtOk ext) (hf : 600 ≤ ext.fuel) (h0 : 6 / 10 ^ 5 ≤ (q : ℝ)) (h1 : (q : ℝ) ≤ 1 - 6 / 10 ^ 5) :
    RefOk ext n (fun e => .methodCall e "qnorm" [litInt "0", litInt "1"]) (Function.invFun normalCdf) e q := by
  obtain ⟨t, ht, hx⟩ := quantile_exists h0 h1
  have e1 : Function.invFun normalCdf (q : ℝ) = t := by
    rw [← hx]; exact Function.leftInverse_invFun normalCdf_strictMono.injective t
  unfold RefOk
  rw [e1]
  refine ⟨C89_qnorm_evaluates hs h20 (by omega) (by omega) he zero_int one_int' ?_ ?_ t hx, by linarith⟩
  · refine (Rat.cast_le (K := ℝ)).1 ?_; push_cast; exact h0
  · refine (Rat.cast_le (K := ℝ)).1 ?_; push_cast; exact h1

theorem ref_sin (hq : |(q : ℝ)| ≤ 3.2) : RefOk ext n (fun e => .methodCall e "sin" []) Real.sin e q :=
  refOk_of (k := 1) ((C67_sin he (B := 4) (by norm_num) (by push_cast; linarith) (by omega) (by omega)).mono (by simp)) (by norm_num)
    ((Real.abs_sin_le_one _).trans (by norm_num))

theorem ref_cos (hq : |(q : ℝ)| ≤ 3.2) : RefOk ext n (fun e => .methodCall e "cos" []) Real.cos e q :=
  refOk_of (k := 1) ((C67_cos he (B := 4) (by norm_num) (by push_cast; linarith) (by omega) (by omega)).mono (by simp)) (by norm_num)
    ((Real.abs_cos_le_one _).trans (by norm_num))

theorem ref_tan (hq : |(q : ℝ)| ≤ 1.11) : RefOk ext n (fun e => .methodCall e "tan" []) Real.tan e q := by
  obtain ⟨u0, u1, w1⟩ := unit_facts (n := n) (by omega) (by omega)
  have hc : 0.38 ≤ Real.cos q := by
    have := Real.one_sub_sq_div_two_le_cos (x := (q : ℝ))
    rw [← sq_abs] at this
    nlinarith [abs_nonneg (q : ℝ)]
  have hc' : |Real.cos q| = Real.cos q := abs_of_pos (by linarith)
  refine refOk_of (k := 40) ((C67_tan he (B := 2) (by norm_num) (by push_cast; linarith) (by omega) (by omega) ?_).mono ?_) (by norm_num) ?_
  · rw [hc']
    have : (2 : ℝ) / 10 ^ n = 2 * (1 / 10 ^ n) := by ring
    have : (2 : ℝ) * (1 / 10 ^ 10) ≤ 0.3 := by norm_num
    linarith
  · rw [hc', add_zero, sub_zero, div_le_iff₀ (by positivity)]
    have : (0.38 : ℝ) ^ 2 ≤ Real.cos q ^ 2 := by gcongr
    generalize (1 : ℝ) / 10 ^ n = u at *
    nlinarith
  · rw [Real.tan_eq_sin_div_cos, abs_div, hc', div_le_iff₀ (by linarith)]
    linarith [Real.abs_sin_le_one (q : ℝ)]

end refs
end

/-! ## All tables -/

/-- What the accuracy tests are about: the function and the interval; nothing for a histogram. -/
noncomputable def testMeaning : List (String × Option ((ℝ → ℝ) × ℝ × ℝ)) := [
  ("test_nextafter", some (fun x => x, 0, 1)),
  ("test_asin", some (Real.arcsin, -(1 / 2), 1 / 2)),
  ("test_asin2", some (Real.arcsin, -1, 1)),
  ("test_acos", some (Real.arccos, -1, 1)),
  ("test_acos2", some (Real.arccos, -(1 / 2), 1 / 2)),
  ("test_exp2_1", some (fun x => (2 : ℝ) ^ x, -1, 0)),
  ("test_exp2_2", some (fun x => (2 : ℝ) ^ x, 0, 1)),
  ("test_exp_1", some (Real.exp, -1, 0)),
  ("test_exp_2", some (Real.exp, 0, 1)),
  ("test_exp_3", some (Real.exp, 1, 2)),
  ("test_exp_m1_1", some (fun x => Real.exp x - 1, -1, 0)),
  ("test_exp_m1_2", some (fun x => Real.exp x - 1, 0, 1)),
  ("test_log2_1", some (Real.logb 2, 7 / 10, 1)),
  ("test_log2_2", some (Real.logb 2, 1, 2)),
  ("test_ln_1p_1", some (fun x => Real.log (1 + x), 1, 2)),
  ("test_ln_1", some (Real.log, 7 / 10, 1)),
  ("test_ln_2", some (Real.log, 1, 2)),
  ("test_log10_1", some (Real.logb 10, 1 / 10, 1)),
  ("test_log10_2", some (Real.logb 10, 1, 10)),
  ("test_log_1", some (Real.logb 10, 1 / 10, 1)),
  ("test_log_2", some (Real.logb 10, 1, 10)),
  ("test_runif", none),
  ("test_dnorm_1", some (normalPdf, -1, 1)),
  ("test_qnorm_1", some (Function.invFun normalCdf, 1 / 10000, 999 / 1000)),
  ("test_rnorm", none),
  ("test_sin", some (Real.sin, -Real.pi, Real.pi)),
  ("test_sini", some (Real.sin, -1, 1)),
  ("test_sin2", some (Real.sin, -Real.pi / 2, Real.pi / 2)),
  ("test_sin3", some (Real.sin, -Real.pi / 4, Real.pi / 4)),
  ("test_cos", some (Real.cos, -Real.pi, Real.pi)),
  ("test_cos2", some (Real.cos, -Real.pi / 2, Real.pi / 2)),
  ("test_cos3", some (Real.cos, -Real.pi / 4, Real.pi / 4)),
  ("test_tan", some (Real.tan, -(7 / 10), 7 / 10)),
  ("test_tan2", some (Real.tan, -(11 / 10), 11 / 10))]

/-- Every row can be made, its sample is near the equidistant point, and what is emitted for the value adds up to the function at the emitted sample. -/
def RowsRight (ext : BdExt) (b32 : Bool) (ref tmin tmax : Expr) (N : ℕ) (F : ℝ → ℝ) (a b : ℝ) : Prop :=
  ∀ i < N, ∃ dx dy de : Dec, sampleRow ext (configDigits b32) (if b32 then 32 else 64) ref tmin tmax N i = .ok (exprOfDec dx, exprOfDec dy, exprOfDec de) ∧
    '.' ∈ displayDec dx ∧ '.' ∈ displayDec dy ∧ '.' ∈ displayDec de ∧
    |(dx.val : ℝ) - (a + i * (b - a) / N)| ≤ 2 / 10 ^ 5 ∧ |((dy.val + de.val : ℚ) : ℝ) - F dx.val| ≤ 5200 / 10 ^ configDigits b32 ∧
    |(de.val : ℝ)| ≤ 2 / 10 ^ 6 * (|F dx.val| + 1) ∧ |F dx.val| ≤ 99 ∧ |(dx.val : ℝ)| ≤ 12

/-- A specification against what it is about. -/
def SpecRight (ext : BdExt) (b32 : Bool) (s : TestSpec) (m : String × Option ((ℝ → ℝ) × ℝ × ℝ)) : Prop :=
  s.name = m.1 ∧ match s.test, m.2 with
    | .maxAbs tmin tmax _ _ N, some (F, a, b) => RowsRight ext b32 s.ref tmin tmax N F a b
    | .histogram _ _, none => True
    | _, _ => False

section
variable {ext : BdExt} {n : ℕ}

theorem rows_of (hr : RoundsNear ext) (b32 : Bool) {ref tmin tmax : Expr} (R : Expr → Expr)
    (hsub : ∀ e, subst ref (VariableList.new.addVar ["x"] e).1 = .ok (R e))
    {a b εa εb : ℝ} (ha : EvalsTo ext (configDigits b32) tmin a εa) (hb : EvalsTo ext (configDigits b32) tmax b εb)
    (hεa : εa ≤ 10 / 10 ^ configDigits b32) (hεb : εb ≤ 10 / 10 ^ configDigits b32)
    (ha5 : |a| ≤ 10) (hb5 : |b| ≤ 10) (hab : 1 / 4 ≤ b - a) (F : ℝ → ℝ) (N : ℕ) (hN : N ≤ 1024)
    (href : ∀ (e : Expr) (q : ℚ), EvalsTo ext (configDigits b32) e q 0 → a - 2 / 10 ^ 5 ≤ q → (q : ℝ) ≤ b + 2 / 10 ^ 5 → (-1 ≤ a → b ≤ 1 → εa = 0 → |(q : ℝ)| ≤ 1) →
      RefOk ext (configDigits b32) R F e q) :
    RowsRight ext b32 ref tmin tmax N F a b := by
  intro i hi
  refine row_ok hr b32 R hsub ha hb ?_ hεa hεb ha5 hb5 hab F N i hN hi ?_ href
  · cases b32 <;> simp [configDigits]
  · cases b32 <;> norm_num [configDigits]

theorem evals_fl (s : String) (q : ℚ) (h : litValue (.float s.toList "") = some q) : EvalsTo ext n (TestSpec.fl s) q 0 := C67_lit h
theorem evals_half : EvalsTo ext n (TestSpec.fl "0.5") (1 / 2) 0 := by simpa using evals_fl (ext := ext) (n := n) "0.5" (1 / 2) (by decide +kernel)
theorem evals_1 : EvalsTo ext n (TestSpec.fl "1.0") 1 0 := by simpa using evals_fl (ext := ext) (n := n) "1.0" 1 (by decide +kernel)
theorem evals_07 : EvalsTo ext n (TestSpec.fl "0.7") (7 / 10) 0 := by simpa using evals_fl (ext := ext) (n := n) "0.7" (7 / 10) (by decide +kernel)
theorem evals_01 : EvalsTo ext n (TestSpec.fl "0.1") (1 / 10) 0 := by simpa using evals_fl (ext := ext) (n := n) "0.1" (1 / 10) (by decide +kernel)
theorem evals_11 : EvalsTo ext n (TestSpec.fl "1.1") (11 / 10) 0 := by simpa using evals_fl (ext := ext) (n := n) "1.1" (11 / 10) (by decide +kernel)
theorem evals_lo : EvalsTo ext n (TestSpec.fl "0.0001") (1 / 10000) 0 := by simpa using evals_fl (ext := ext) (n := n) "0.0001" (1 / 10000) (by decide +kernel)
theorem evals_hi : EvalsTo ext n (TestSpec.fl "0.999") (999 / 1000) 0 := by simpa using evals_fl (ext := ext) (n := n) "0.999" (999 / 1000) (by decide +kernel)
theorem evals_0 : EvalsTo ext n (litInt "0") 0 0 := by simpa using evals_int (ext := ext) (n := n) "0" 0 rfl
theorem four_int : EvalsTo ext n (litInt "4") 4 0 := by simpa using evals_int (ext := ext) (n := n) "4" 4 rfl

theorem evals_pi_by (h1 : 10 ≤ n) (h2 : n ≤ 90) {e : Expr} {k : ℝ} (h : EvalsTo ext n e k 0) (hk : 2 ≤ k) :
    EvalsTo ext n (.binary TestSpec.pi .div e) (Real.pi / k) (2 * (1 / 10 ^ n)) ∧ EvalsTo ext n (.binary (TestSpec.neg TestSpec.pi) .div e) (-Real.pi / k) (2 * (1 / 10 ^ n)) := by
  have hp := Real.pi_lt_four
  have hb : |Real.pi / k| ≤ 2 := by
    rw [abs_of_pos (by positivity), div_le_iff₀ (by linarith)]; linarith
  refine ⟨evals_div (lo := 2) (q := 2) h1 h2 (evals_pi h2) (evals_zero h) (by norm_num) le_rfl (by norm_num) (by norm_num) hk hb (by norm_num),
    evals_div (lo := 2) (q := 2) h1 h2 (C67_neg (evals_pi h2)) (evals_zero h) (by norm_num) le_rfl (by norm_num) (by norm_num) hk ?_ (by norm_num)⟩
  rwa [neg_div, abs_neg]

end

/-- **C90** Every row of every accuracy test can be made, at both widths. -/
theorem C90_rows {ext : BdExt} (hs : SqrtOk ext) (hf : 600 ≤ ext.fuel) (hr : RoundsNear ext) (b32 : Bool) :
    List.Forall₂ (SpecRight ext b32) testSpecs testMeaning := by
  have h20 : 20 ≤ configDigits b32 := by cases b32 <;> simp [configDigits]
  have h40 : configDigits b32 ≤ 40 := by cases b32 <;> simp [configDigits]
  have z : (0 : ℝ) ≤ 10 / 10 ^ configDigits b32 := by positivity
  have zp : (1 / 2 * (1 / 10 ^ configDigits b32) : ℝ) ≤ 10 / 10 ^ configDigits b32 := by
    rw [show (10 : ℝ) / 10 ^ configDigits b32 = 10 * (1 / 10 ^ configDigits b32) by ring]
    gcongr; norm_num
  have z2 : (2 * (1 / 10 ^ configDigits b32) : ℝ) ≤ 10 / 10 ^ configDigits b32 := by
    rw [show (10 : ℝ) / 10 ^ configDigits b32 = 10 * (1 / 10 ^ configDigits b32) by ring]
    gcongr; norm_num
  have p2 := evals_pi_by (ext := ext) (n := configDigits b32) (by omega) (by omega) two_int le_rfl
  have p4 := evals_pi_by (ext := ext) (n := configDigits b32) (by omega) (by omega) four_int (by norm_num)
  have pp := evals_pi (ext := ext) (n := configDigits b32) (by omega)
  have q1 := Real.pi_gt_d2
  have q2 := Real.pi_lt_d2
  have a2 : |Real.pi / 2| ≤ 1.6 := by rw [abs_of_pos (by positivity)]; linarith
  have a4 : |Real.pi / 4| ≤ 0.8 := by rw [abs_of_pos (by positivity)]; linarith
  have am : ∀ {q a b c : ℝ}, a - 2 / 10 ^ 5 ≤ q → q ≤ b + 2 / 10 ^ 5 → -c + 2 / 10 ^ 5 ≤ a → b ≤ c - 2 / 10 ^ 5 → |q| ≤ c :=
    fun h1 h2 h3 h4 => abs_le.2 ⟨by linarith, by linarith⟩
  unfold testSpecs testMeaning
  refine .cons ⟨rfl, ?_⟩ (.cons ⟨rfl, ?_⟩ (.cons ⟨rfl, ?_⟩ (.cons ⟨rfl, ?_⟩ (.cons ⟨rfl, ?_⟩ (.cons ⟨rfl, ?_⟩ (.cons ⟨rfl, ?_⟩ (.cons ⟨rfl, ?_⟩ (.cons ⟨rfl, ?_⟩ (.cons ⟨rfl, ?_⟩
    (.cons ⟨rfl, ?_⟩ (.cons ⟨rfl, ?_⟩ (.cons ⟨rfl, ?_⟩ (.cons ⟨rfl, ?_⟩ (.cons ⟨rfl, ?_⟩ (.cons ⟨rfl, ?_⟩ (.cons ⟨rfl, ?_⟩ (.cons ⟨rfl, ?_⟩ (.cons ⟨rfl, ?_⟩ (.cons ⟨rfl, ?_⟩
    (.cons ⟨rfl, ?_⟩ (.cons ⟨rfl, trivial⟩ (.cons ⟨rfl, ?_⟩ (.cons ⟨rfl, ?_⟩ (.cons ⟨rfl, trivial⟩ (.cons ⟨rfl, ?_⟩ (.cons ⟨rfl, ?_⟩ (.cons ⟨rfl, ?_⟩ (.cons ⟨rfl, ?_⟩
    (.cons ⟨rfl, ?_⟩ (.cons ⟨rfl, ?_⟩ (.cons ⟨rfl, ?_⟩ (.cons ⟨rfl, ?_⟩ (.cons ⟨rfl, ?_⟩ .nil)))))))))))))))))))))))))))))))))
  -- nextafter
  · exact rows_of hr b32 (fun e => e) (fun _ => rfl) evals_0 one_int z z (by norm_num) (by norm_num) (by norm_num) _ _ (by norm_num)
      fun e q he h1 h2 _ => ref_id he (am h1 h2 (by norm_num) (by norm_num))
  -- asin, acos
  · exact rows_of hr b32 _ (fun _ => rfl) (C67_neg evals_half) evals_half z z (by norm_num) (by norm_num) (by norm_num) _ _ (by norm_num)
      fun e q he h1 h2 h3 => ref_asin h20 h40 he hs hf (h3 (by norm_num) (by norm_num) rfl)
  · exact rows_of hr b32 _ (fun _ => rfl) (C67_neg evals_1) evals_1 z z (by norm_num) (by norm_num) (by norm_num) _ _ (by norm_num)
      fun e q he h1 h2 h3 => ref_asin h20 h40 he hs hf (h3 (by norm_num) (by norm_num) rfl)
  · exact rows_of hr b32 _ (fun _ => rfl) (C67_neg one_int) one_int z z (by norm_num) (by norm_num) (by norm_num) _ _ (by norm_num)
      fun e q he h1 h2 h3 => ref_acos h20 h40 he hs hf (h3 (by norm_num) (by norm_num) rfl)
  · exact rows_of hr b32 _ (fun _ => rfl) (C67_neg evals_half) evals_half z z (by norm_num) (by norm_num) (by norm_num) _ _ (by norm_num)
      fun e q he h1 h2 h3 => ref_acos h20 h40 he hs hf (h3 (by norm_num) (by norm_num) rfl)
  -- exp2
  · exact rows_of hr b32 _ (fun _ => rfl) (C67_neg one_int) evals_0 z z (by norm_num) (by norm_num) (by norm_num) _ _ (by norm_num)
      fun e q he h1 h2 _ => ref_exp2 h20 h40 he hf (am h1 h2 (by norm_num) (by norm_num))
  · exact rows_of hr b32 _ (fun _ => rfl) evals_0 one_int z z (by norm_num) (by norm_num) (by norm_num) _ _ (by norm_num)
      fun e q he h1 h2 _ => ref_exp2 h20 h40 he hf (am h1 h2 (by norm_num) (by norm_num))
  -- exp, exp_m1
  · exact rows_of hr b32 _ (fun _ => rfl) (C67_neg one_int) evals_0 z z (by norm_num) (by norm_num) (by norm_num) _ _ (by norm_num)
      fun e q he h1 h2 _ => ref_exp h20 h40 he (am h1 h2 (by norm_num) (by norm_num))
  · exact rows_of hr b32 _ (fun _ => rfl) evals_0 one_int z z (by norm_num) (by norm_num) (by norm_num) _ _ (by norm_num)
      fun e q he h1 h2 _ => ref_exp h20 h40 he (am h1 h2 (by norm_num) (by norm_num))
  · exact rows_of hr b32 _ (fun _ => rfl) one_int two_int z z (by norm_num) (by norm_num) (by norm_num) _ _ (by norm_num)
      fun e q he h1 h2 _ => ref_exp h20 h40 he (am h1 h2 (by norm_num) (by norm_num))
  · exact rows_of hr b32 _ (fun _ => rfl) (C67_neg one_int) evals_0 z z (by norm_num) (by norm_num) (by norm_num) _ _ (by norm_num)
      fun e q he h1 h2 _ => ref_expm1 h20 h40 he (am h1 h2 (by norm_num) (by norm_num))
  · exact rows_of hr b32 _ (fun _ => rfl) evals_0 one_int z z (by norm_num) (by norm_num) (by norm_num) _ _ (by norm_num)
      fun e q he h1 h2 _ => ref_expm1 h20 h40 he (am h1 h2 (by norm_num) (by norm_num))
  -- logarithms
  · exact rows_of hr b32 _ (fun _ => rfl) evals_07 evals_1 z z (by norm_num) (by norm_num) (by norm_num) _ _ (by norm_num)
      fun e q he h1 h2 _ => ref_log2 h20 h40 he hf (by linarith) (by linarith)
  · exact rows_of hr b32 _ (fun _ => rfl) evals_1 two_int z z (by norm_num) (by norm_num) (by norm_num) _ _ (by norm_num)
      fun e q he h1 h2 _ => ref_log2 h20 h40 he hf (by linarith) (by linarith)
  · exact rows_of hr b32 _ (fun _ => rfl) one_int two_int z z (by norm_num) (by norm_num) (by norm_num) _ _ (by norm_num)
      fun e q he h1 h2 _ => ref_ln1p h20 h40 he hf (by linarith) (by linarith)
  · exact rows_of hr b32 _ (fun _ => rfl) evals_07 evals_1 z z (by norm_num) (by norm_num) (by norm_num) _ _ (by norm_num)
      fun e q he h1 h2 _ => ref_ln h20 h40 he hf (by linarith) (by linarith)
  · exact rows_of hr b32 _ (fun _ => rfl) evals_1 two_int z z (by norm_num) (by norm_num) (by norm_num) _ _ (by norm_num)
      fun e q he h1 h2 _ => ref_ln h20 h40 he hf (by linarith) (by linarith)
  · exact rows_of hr b32 _ (fun _ => rfl) evals_01 evals_1 z z (by norm_num) (by norm_num) (by norm_num) _ _ (by norm_num)
      fun e q he h1 h2 _ => ref_log10 h20 h40 he hf (by linarith) (by linarith)
  · exact rows_of hr b32 _ (fun _ => rfl) evals_1 ten_int z z (by norm_num) (by norm_num) (by norm_num) _ _ (by norm_num)
      fun e q he h1 h2 _ => ref_log10 h20 h40 he hf (by linarith) (by linarith)
  · exact rows_of hr b32 _ (fun _ => rfl) evals_01 evals_1 z z (by norm_num) (by norm_num) (by norm_num) _ _ (by norm_num)
      fun e q he h1 h2 _ => ref_log10 h20 h40 he hf (by linarith) (by linarith)
  · exact rows_of hr b32 _ (fun _ => rfl) evals_1 ten_int z z (by norm_num) (by norm_num) (by norm_num) _ _ (by norm_num)
      fun e q he h1 h2 _ => ref_log10 h20 h40 he hf (by linarith) (by linarith)
  -- normal distribution
  · exact rows_of hr b32 _ (fun _ => rfl) (C67_neg one_int) one_int z z (by norm_num) (by norm_num) (by norm_num) _ _ (by norm_num)
      fun e q he h1 h2 _ => ref_dnorm h20 h40 he hs hf (am h1 h2 (by norm_num) (by norm_num))
  · exact rows_of hr b32 _ (fun _ => rfl) evals_lo evals_hi z z (by norm_num) (by norm_num) (by norm_num) _ _ (by norm_num)
      fun e q he h1 h2 _ => ref_qnorm h20 h40 he hs hf (by linarith) (by linarith)
  -- sin, cos, tan
  · exact rows_of hr b32 _ (fun _ => rfl) (C67_neg pp) pp zp zp (by rw [abs_neg, abs_of_pos] <;> linarith) (by rw [abs_of_pos] <;> linarith) (by linarith) _ _ (by norm_num)
      fun e q he h1 h2 _ => ref_sin h20 h40 he (am h1 h2 (by linarith) (by linarith))
  · exact rows_of hr b32 _ (fun _ => rfl) (C67_neg evals_1) evals_1 z z (by norm_num) (by norm_num) (by norm_num) _ _ (by norm_num)
      fun e q he h1 h2 _ => ref_sin h20 h40 he (am h1 h2 (by norm_num) (by norm_num))
  · exact rows_of hr b32 _ (fun _ => rfl) p2.2 p2.1 z2 z2 (by rw [neg_div, abs_neg]; linarith) (by linarith) (by linarith) _ _ (by norm_num)
      fun e q he h1 h2 _ => ref_sin h20 h40 he (am h1 h2 (by linarith) (by linarith))
  · exact rows_of hr b32 _ (fun _ => rfl) p4.2 p4.1 z2 z2 (by rw [neg_div, abs_neg]; linarith) (by linarith) (by linarith) _ _ (by norm_num)
      fun e q he h1 h2 _ => ref_sin h20 h40 he (am h1 h2 (by linarith) (by linarith))
  · exact rows_of hr b32 _ (fun _ => rfl) (C67_neg pp) pp zp zp (by rw [abs_neg, abs_of_pos] <;> linarith) (by rw [abs_of_pos] <;> linarith) (by linarith) _ _ (by norm_num)
      fun e q he h1 h2 _ => ref_cos h20 h40 he (am h1 h2 (by linarith) (by linarith))
  · exact rows_of hr b32 _ (fun _ => rfl) p2.2 p2.1 z2 z2 (by rw [neg_div, abs_neg]; linarith) (by linarith) (by linarith) _ _ (by norm_num)
      fun e q he h1 h2 _ => ref_cos h20 h40 he (am h1 h2 (by linarith) (by linarith))
  · exact rows_of hr b32 _ (fun _ => rfl) p4.2 p4.1 z2 z2 (by rw [neg_div, abs_neg]; linarith) (by linarith) (by linarith) _ _ (by norm_num)
      fun e q he h1 h2 _ => ref_cos h20 h40 he (am h1 h2 (by linarith) (by linarith))
  · exact rows_of hr b32 _ (fun _ => rfl) (C67_neg evals_07) evals_07 z z (by norm_num) (by norm_num) (by norm_num) _ _ (by norm_num)
      fun e q he h1 h2 _ => ref_tan h20 h40 he (am h1 h2 (by norm_num) (by norm_num))
  · exact rows_of hr b32 _ (fun _ => rfl) (C67_neg evals_11) evals_11 z z (by norm_num) (by norm_num) (by norm_num) _ _ (by norm_num)
      fun e q he h1 h2 _ => ref_tan h20 h40 he (am h1 h2 (by norm_num) (by norm_num))

/-- **C90** The error left in the tables is less than a millionth of any limit in use. -/
theorem C90_negligible (b32 : Bool) : ∀ s ∈ testSpecs, ∀ tmin tmax k32 k64 N, s.test = .maxAbs tmin tmax k32 k64 N →
    (5200 : ℚ) / 10 ^ configDigits b32 ≤ 1 / 10 ^ 6 * accuracyLimit b32 k32 k64 := by
  have h : ∀ s ∈ testSpecs, match s.test with
    | .maxAbs _ _ k32 k64 _ => (5200 : ℚ) / 10 ^ configDigits b32 ≤ 1 / 10 ^ 6 * accuracyLimit b32 k32 k64
    | .histogram _ _ => True := by
    cases b32 <;> simp only [testSpecs, TestSpec.maxAbs, List.forall_mem_cons, configDigits, accuracyLimit] <;> norm_num
  intro s hs tmin tmax k32 k64 N ht
  have := h s hs
  rw [ht] at this
  exact this

theorem forall2_pick {α β : Type _} {R : α → β → Prop} {l : List α} {m : List β} (h : List.Forall₂ R l m) {a : α} (ha : a ∈ l) : ∃ b ∈ m, R a b := by
  induction h with
  | nil => simp at ha
  | cons hab _ ih =>
    rcases List.mem_cons.1 ha with rfl | ha
    · exact ⟨_, by simp, hab⟩
    · obtain ⟨b, hb, hr⟩ := ih ha
      exact ⟨b, by simp [hb], hr⟩

theorem foldlM_rows {α : Type} (f : ℕ → Res α) (l : List ℕ) (h : ∀ i ∈ l, ∃ a, f i = .ok a) (acc : List α) :
    ∃ rows, l.foldlM (fun rows i => do let row ← f i; pure (rows ++ [row])) acc = .ok (acc ++ rows) ∧ List.Forall₂ (fun i a => f i = .ok a) l rows := by
  induction l generalizing acc with
  | nil => exact ⟨[], by simp [Res.pure_eq], .nil⟩
  | cons i l ih =>
    obtain ⟨a, ha⟩ := h i (by simp)
    obtain ⟨rows, h1, h2⟩ := ih (fun j hj => h j (by simp [hj])) (acc ++ [a])
    refine ⟨a :: rows, ?_, .cons ha h2⟩
    rw [List.foldlM_cons, ha]
    refine Eq.trans h1 ?_
    rw [List.append_assoc]; rfl

/-- **C90** So making the table of an accuracy test never ends the run. -/
theorem C90_tables {ext : BdExt} (hs : SqrtOk ext) (hf : 600 ≤ ext.fuel) (hr : RoundsNear ext) (b32 : Bool) (s : TestSpec) (hm : s ∈ testSpecs)
    (tmin tmax : Expr) (k32 k64 : ℚ) (N : ℕ) (ht : s.test = .maxAbs tmin tmax k32 k64 N) :
    ∃ rows, testRows ext b32 s.ref tmin tmax N = .ok rows ∧ rows.length = N := by
  obtain ⟨m, -, -, h⟩ := forall2_pick (C90_rows hs hf hr b32) hm
  rw [ht] at h
  obtain ⟨F, a, b, h⟩ : ∃ F a b, RowsRight ext b32 s.ref tmin tmax N F a b := by
    revert h
    cases m.2 with
    | none => exact False.elim
    | some p => exact fun h => ⟨p.1, p.2.1, p.2.2, h⟩
  obtain ⟨rows, h1, h2⟩ := foldlM_rows (fun i => sampleRow ext (configDigits b32) (if b32 then 32 else 64) s.ref tmin tmax N i) (List.range N)
    (fun i hi => by obtain ⟨dx, dy, de, h1, _⟩ := h i (List.mem_range.1 hi); exact ⟨_, h1⟩) []
  exact ⟨rows, h1, by rw [← h2.length_eq, List.length_range]⟩

/-! ## The hypotheses can be met -/

/-- Conversions that lose nothing. -/
def tableExt : BdExt :=
  { longExt with
    toF32 := fun d => some (Encodable.encode (d.int, d.scale))
    toF64 := fun d => some (Encodable.encode (d.int, d.scale))
    fromF32 := fun b => (Encodable.decode (α := ℤ × ℤ) b).map fun p => ⟨p.1 * 10 ^ (p.2.natAbs + 1), p.2 + (p.2.natAbs + 1 : ℕ)⟩
    fromF64 := fun b => (Encodable.decode (α := ℤ × ℤ) b).map fun p => ⟨p.1 * 10 ^ (p.2.natAbs + 1), p.2 + (p.2.natAbs + 1 : ℕ)⟩ }

theorem tableExt_rounds : RoundsNear tableExt := by
  have hv : ∀ d : Dec, (⟨d.int * 10 ^ (d.scale.natAbs + 1), d.scale + (d.scale.natAbs + 1 : ℕ)⟩ : Dec).val = d.val := by
    intro d
    generalize d.scale.natAbs + 1 = k
    have e : -(d.scale + (k : ℤ)) = -d.scale + -(k : ℤ) := by ring
    unfold Dec.val
    simp only [e, zpow_add₀ (show (10 : ℚ) ≠ 0 by norm_num), zpow_neg, zpow_natCast]
    push_cast
    field_simp
  have h : ∀ d : Dec, |(⟨d.int * 10 ^ (d.scale.natAbs + 1), d.scale + (d.scale.natAbs + 1 : ℕ)⟩ : Dec).val - d.val| ≤ 1 / 10 ^ 6 * |d.val| + 1 / 10 ^ 37 := by
    intro d; rw [hv, sub_self, abs_zero]; positivity
  constructor <;> intro d _ <;>
    exact ⟨_, _, rfl, by simp only [tableExt, Encodable.encodek]; rfl, h d, fun h1 => by rwa [hv], by simp only; omega⟩

example : SqrtOk tableExt ∧ 600 ≤ tableExt.fuel ∧ RoundsNear tableExt := ⟨⟨longExt_ok.1, longExt_ok.2⟩, by decide, tableExt_rounds⟩

end Verif

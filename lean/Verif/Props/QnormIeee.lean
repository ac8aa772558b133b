import Verif.Props.QnormError
import Verif.Props.IeeeTrig
import Verif.Props.IeeeExp
import Verif.Props.IeeeSpecial

/-! # C96: the generated 64-bit `qnorm` in float arithmetic -/

namespace Verif
open Gen RExpr Bd Dec Polynomial

theorem qnorm_at_nodes : ∀ i < 32, |qnormPolyQ (qnormXs i)| ≤ 2 / 5 ∧ |qnormXs i| ≤ 4999 / 10000 := by decide +kernel

/-- The polynomial stays small. -/
theorem qnormPoly_le {t : ℝ} (ht : |t| ≤ 4999 / 10000) : |qnormPoly t| ≤ 48 := by
  have H : NearNodes 31 0 (4999 / 10000) 0 fun i => 0 + 4999 / 10000 * cnode 31 i := by
    refine ⟨by norm_num, by norm_num, le_rfl, fun i _ => ?_, fun i _ => by simp⟩
    have := cnode_mem 31 i
    rw [zero_add, sub_zero, abs_mul, abs_of_pos (by norm_num)]
    linarith
  have h := H.small (by norm_num) qnormP qnormP_degree (1 / 2) (fun i hi => by
    have h1 := qnorm_node (i := i) (by omega) (d := 0 + 4999 / 10000 * cnode 31 i) (by
      rw [cnode, show (i : ℝ) * Real.pi / (31 : ℕ) = Real.pi * i / 31 by push_cast; ring]
      rw [show (0 : ℝ) + 4999 / 10000 * -Real.cos (Real.pi * i / 31) - (0 - 4999 / 10000 * Real.cos (Real.pi * i / 31)) = 0 by ring, abs_zero]
      positivity)
    obtain ⟨h2, h3⟩ := qnorm_at_nodes i (by omega)
    have h2' := (Rat.cast_le (K := ℝ)).2 h2
    have h3' := (Rat.cast_le (K := ℝ)).2 h3
    push_cast [qnormPolyQ_cast] at h2' h3'
    have h4 := qnormPoly_lipschitz (a := 0 + 4999 / 10000 * cnode 31 i) (b := qnormXs i) (by
      have := H.inside i hi
      rw [sub_zero] at this
      linarith) (by linarith)
    rw [qnormP_eval]
    have h5 := abs_sub_abs_le_abs_sub (qnormPoly (0 + 4999 / 10000 * cnode 31 i)) (qnormPoly (qnormXs i))
    norm_num at h1 h4 h5 h2' ⊢
    linarith) t (by rw [sub_zero]; exact ht)
  rw [qnormP_eval] at h
  norm_num at h ⊢
  linarith

set_option maxHeartbeats 800000 in
/-- The division by the pole in float arithmetic. -/
theorem qnorm_core {x y Q E : ℝ} (hx : |x| ≤ 1 / 2 - 1 / 6000) (hQ : |Q| ≤ 48) (hE : E ≤ 1) (hy : |y - Q| ≤ E) :
    ∃ r z, FloatFmt.f64.rne (x * x) = .f (FloatFmt.f64.rnd (x * x)) ∧
      FloatFmt.f64.rne (FloatFmt.f64.rnd (x * x) - 1 / 4) = .f (FloatFmt.f64.rnd (FloatFmt.f64.rnd (x * x) - 1 / 4)) ∧
      FloatFmt.f64.rnd (FloatFmt.f64.rnd (x * x) - 1 / 4) ≠ 0 ∧ FloatFmt.f64.rne (1 / FloatFmt.f64.rnd (FloatFmt.f64.rnd (x * x) - 1 / 4)) = .f r ∧
      FloatFmt.f64.rne (y * r) = .f z ∧ FloatFmt.f64.rne z = .f z ∧ FloatFmt.f64.Repr z ∧ |z - Q / (x ^ 2 - 1 / 4)| ≤ (E + 1 / 10 ^ 9) / (1 / 4 - x ^ 2) := by
  have hF := FloatFmt.wide_fmtOf false
  obtain ⟨F, hF'⟩ : ∃ F, F = FloatFmt.f64 := ⟨_, rfl⟩
  have hFw : F.Wide := hF' ▸ hF
  have hbig : (1310720 : ℝ) ≤ 2 ^ F.bias := by
    rw [hF']
    calc (1310720 : ℝ) ≤ 2 ^ 21 := by norm_num
      _ ≤ _ := pow_le_pow_right₀ (by norm_num) (by decide)
  have heps : F.eps ≤ 2 / 10 ^ 16 := by
    have : FloatFmt.f64.eps = 1 / 2 ^ 53 := eps_f64
    rw [hF', this]; norm_num
  rw [← hF']
  have hε := FloatFmt.eps_pos (F := F)
  have ht := FloatFmt.tiny_le hFw
  have ht0 := FloatFmt.tiny_pos (F := F)
  have err : ∀ {v B : ℝ}, |v| + 1 ≤ B → |F.rnd v - v| ≤ 2 / 10 ^ 16 * B := by
    intro v B h
    refine (FloatFmt.rnd_err v).trans (mul_le_mul heps ?_ (by positivity) (by positivity))
    norm_num at ht; linarith
  have hx0 := abs_nonneg x
  have hE0 : 0 ≤ E := (abs_nonneg _).trans hy
  have hxx0 : 0 ≤ x * x := mul_self_nonneg x
  have hxx : x * x = |x| * |x| := (abs_mul_abs_self x).symm
  obtain ⟨q, hq⟩ : ∃ q, q = 1 / 4 - x * x := ⟨_, rfl⟩
  have hqd : 1 / 12000 ≤ q := by rw [hq, hxx]; nlinarith
  have hq4 : q ≤ 1 / 4 := by linarith
  have hq0 : 0 < q := by linarith
  have hxx4 : x * x ≤ 1 / 4 := by linarith
  have e1 := err (v := x * x) (B := 2) (by rw [abs_of_nonneg hxx0]; linarith)
  have n1 : F.rne (x * x) = .f (F.rnd (x * x)) := FloatFmt.rne_f hFw.ok (by rw [abs_of_nonneg hxx0]; linarith)
  obtain ⟨p, hp⟩ : ∃ p, p = F.rnd (x * x) := ⟨_, rfl⟩
  rw [← hp] at e1 n1 ⊢
  have e1' := abs_le.1 e1
  norm_num at e1'
  have hpa : |p - 1 / 4| ≤ 1 := by rw [abs_le]; constructor <;> linarith
  have e2 := err (v := p - 1 / 4) (B := 2) (by linarith)
  have n2 : F.rne (p - 1 / 4) = .f (F.rnd (p - 1 / 4)) := FloatFmt.rne_f hFw.ok (by linarith)
  obtain ⟨q', hq'⟩ : ∃ q', q' = F.rnd (p - 1 / 4) := ⟨_, rfl⟩
  rw [← hq'] at e2 n2 ⊢
  have e2' := abs_le.1 e2
  norm_num at e2'
  have hqq : |q' + q| ≤ 1 / 10 ^ 15 := by rw [abs_le]; norm_num; constructor <;> linarith
  have hqq' := abs_le.1 hqq
  norm_num at hqq'
  have hq'0 : q' < 0 := by linarith
  have hq'1 : (1 - 1 / 10 ^ 10) * q ≤ -q' := by norm_num; linarith
  -- the reciprocal
  have hinv : |1 / q'| ≤ (1 + 2 / 10 ^ 10) / q := by
    rw [abs_div, abs_one, abs_of_neg hq'0, div_le_div_iff₀ (by linarith) hq0]
    norm_num at hq'1 ⊢; nlinarith
  have hinvq : 1 / q ≤ 12000 := by rw [div_le_iff₀ hq0]; linarith
  have hinvq1 : 4 ≤ 1 / q := by rw [le_div_iff₀ hq0]; linarith
  have hinv2 : |1 / q'| ≤ (1 + 2 / 10 ^ 10) * (1 / q) := hinv.trans (le_of_eq (by ring))
  have hinv' : |1 / q'| ≤ 13000 := by linarith
  have e3 := err (v := 1 / q') (B := 2 * (1 / q)) (by linarith)
  have n3 : F.rne (1 / q') = .f (F.rnd (1 / q')) := FloatFmt.rne_f hFw.ok (by linarith)
  obtain ⟨r, hr⟩ : ∃ r, r = F.rnd (1 / q') := ⟨_, rfl⟩
  rw [← hr] at e3 n3
  have hra : |r| ≤ 2 * (1 / q) := by
    have := abs_sub_abs_le_abs_sub r (1 / q')
    linarith
  have hya : |y| ≤ 49 := by
    have := abs_sub_abs_le_abs_sub y Q
    linarith
  have hyr : |y * r| ≤ 98 * (1 / q) := by
    rw [abs_mul]
    calc |y| * |r| ≤ 49 * (2 * (1 / q)) := mul_le_mul hya hra (abs_nonneg _) (by norm_num)
      _ = _ := by ring
  have e4 := err (v := y * r) (B := 99 * (1 / q)) (by linarith)
  have n4 : F.rne (y * r) = .f (F.rnd (y * r)) := FloatFmt.rne_f hFw.ok (by linarith)
  have hz : |F.rnd (y * r)| ≤ 2 ^ 20 * 2 := by
    have := abs_sub_abs_le_abs_sub (F.rnd (y * r)) (y * r)
    linarith
  refine ⟨r, F.rnd (y * r), n1, n2, hq'0.ne, n3, n4, ?_, by rw [hF']; exact FloatFmt.rnd_repr _, ?_⟩
  · refine FloatFmt.rne_repr (FloatFmt.rnd_repr _) (lt_of_le_of_lt hz ?_)
    rw [hF']
    calc (2 : ℝ) ^ 20 * 2 = 2 ^ 21 := by norm_num
      _ < _ := pow_lt_pow_right₀ (by norm_num) (by decide)
  have k1 : |y * (1 / q') + Q / q| ≤ (E + 1 / 10 ^ 9 * (9 / 10)) * (1 / q) := by
    have h2 : y * (1 / q') + Q / q = ((y - Q) + Q * ((q' + q) * (1 / q))) * (1 / q') := by
      have := hq'0.ne
      field_simp; ring
    rw [h2, abs_mul]
    have h3 : |(y - Q) + Q * ((q' + q) * (1 / q))| ≤ E + 48 * (1 / 10 ^ 15 * 12000) := by
      refine (abs_add_le _ _).trans (add_le_add hy ?_)
      rw [abs_mul, abs_mul, abs_of_pos (by positivity : 0 < 1 / q)]
      exact mul_le_mul hQ (mul_le_mul hqq hinvq (by positivity) (by positivity)) (by positivity) (by norm_num)
    calc _ ≤ (E + 48 * (1 / 10 ^ 15 * 12000)) * ((1 + 2 / 10 ^ 10) * (1 / q)) := mul_le_mul h3 hinv2 (abs_nonneg _) (by positivity)
      _ ≤ _ := by
        rw [← mul_assoc]
        refine mul_le_mul_of_nonneg_right ?_ (by positivity)
        norm_num; linarith
  have k2 : |y * r - y * (1 / q')| ≤ 49 * (2 / 10 ^ 16 * (2 * (1 / q))) := by
    rw [← mul_sub, abs_mul]
    exact mul_le_mul hya e3 (abs_nonneg _) (by norm_num)
  have hv : Q / (x ^ 2 - 1 / 4) = -(Q / q) := by
    rw [hq, show x ^ 2 - 1 / 4 = -(1 / 4 - x * x) by ring, div_neg]
  rw [hv, show 1 / 4 - x ^ 2 = q by rw [hq]; ring, div_eq_mul_one_div (E + _)]
  have k1' := abs_le.1 k1
  have k2' := abs_le.1 k2
  have k4' := abs_le.1 e4
  rw [abs_le]
  generalize Q / q = v at *
  generalize 1 / q = i at *
  constructor <;> linarith

section
variable {ext : BdExt} {fx : FloatExt} {u w : ℝ}

theorem qnorm_code_ieee (hs : SqrtOk ext) (hf : 562 ≤ ext.fuel) (h : IeeeOk fx false u w) (hu : u ≤ 1 / 10 ^ 15) (hw : w ≤ 1 / 10 ^ 15) :
    ∃ e, polynomialCode ext fx false .qnorm ⟨-4999, 4⟩ ⟨4999, 4⟩ = .ok e ∧
      ∀ calls, ApproxIE (ieeeInterp (fmtOf false) calls) "x" e.toR qnormPoly (Set.Icc (-(4999 / 10000)) (4999 / 10000)) (4 / 10 ^ 8) := by
  have hn := h.nonneg
  have hlo : ((⟨-4999, 4⟩ : Dec).val : ℝ) = -(4999 / 10000) := by rw [show (⟨-4999, 4⟩ : Dec).val = -(4999 / 10000) by decide +kernel]; push_cast; ring
  have hhi : ((⟨4999, 4⟩ : Dec).val : ℝ) = 4999 / 10000 := by rw [show (⟨4999, 4⟩ : Dec).val = 4999 / 10000 by decide +kernel]; push_cast; ring
  obtain ⟨e, h1, h2⟩ := h.polynomialCode_within_ieee (ext := ext) (by norm_num at hu ⊢; linarith) (by norm_num at hw ⊢; linarith) .qnorm rfl (by norm_num) (by decide)
    (C96_terms ext hs hf) (A' := 4760000) (T := 4810000) hlo hhi (by norm_num) (by norm_num) qnorm_nearPoly le_rfl (by norm_num) (by norm_num) (by norm_num) (by norm_num) (by norm_num)
  refine ⟨e, h1, fun calls => (h2 calls).mono le_rfl ?_⟩
  have : (fmtOf false).eps = 1 / 2 ^ 53 := eps_f64
  rw [this]
  push_cast
  norm_num at hu hw ⊢
  linarith

/-- **C96** What the shipped 64-bit `qnorm(p, 0.0, 1.0)` returns, in float arithmetic, for every `p` between 0.0002 and 0.9998: the value at `x = p - 1/2` of the
polynomial with the coefficients `qnormInts`, divided by `x² - 1/4`, up to `5e-8 / (1/4 - x²)`. -/
theorem C96_value (hs : SqrtOk ext) (hf : 562 ≤ ext.fuel) (h : IeeeOk fx false u w) (hu : u ≤ 1 / 10 ^ 15) (hw : w ≤ 1 / 10 ^ 15) :
    ∃ e, polynomialCode ext fx false .qnorm ⟨-4999, 4⟩ ⟨4999, 4⟩ = .ok e ∧
      (∀ (calls : String → List RV → RV) (g : Name → RV) (v : RV), v.IsFloat → ((Gen.qnorm e.toR).apply (ieeeInterp .f64 calls) g [v, .f 0, .f 1]).IsFloat) ∧
      ∀ (calls : String → List RV → RV) (g : Name → RV) (a : ℝ), 1 / 5000 ≤ a → a ≤ 4999 / 5000 →
        ∃ x y, |x - (a - 1 / 2)| ≤ 1 / 10 ^ 15 ∧ (Gen.qnorm e.toR).apply (ieeeInterp .f64 calls) g [.f a, .f 0, .f 1] = .f y ∧
          FloatFmt.f64.Repr y ∧ |y - qnormPoly x / (x ^ 2 - 1 / 4)| ≤ 5 / 10 ^ 8 / (1 / 4 - x ^ 2) := by
  obtain ⟨e, h1, h2⟩ := qnorm_code_ieee hs hf h hu hw
  have hF := FloatFmt.wide_fmtOf false
  have hFF : fmtOf false = FloatFmt.f64 := rfl
  rw [hFF] at hF
  refine ⟨e, h1, fun calls g v hv => ?_, fun calls g a ha1 ha2 => ?_⟩
  · have hp := (h2 calls).2.float
    rw [hFF] at hp
    have hx : (binIE .f64 .sub v (.f (1 / 2))).IsFloat := subIE_isFloat hv (.f _)
    simp only [Gen.qnorm, ofFty_apply, List.map, bindParams, denoteBlock_letT, denoteBlock_letU]
    have hpx : ∀ env : Name → RV, env ["x"] = binIE .f64 .sub v (.f (1 / 2)) → (e.toR.denote (ieeeInterp .f64 calls) env).IsFloat := fun env h => hp env (by rw [h]; exact hx)
    generalize hpv : e.toR.denote _ _ = pv
    have hpf : pv.IsFloat := by
      rw [← hpv]
      refine hpx _ ?_
      simp only [denote_v, denote_sub, envSet_one, numIE_half hF, ieee_bin, String.reduceEq, if_true, if_false]
    simp only [denoteBlock_expr, denote_v, denote_sub, denote_mul, denote_add, denote_div, denote_paren, envSet_one, numIE_half hF, ieee_bin, String.reduceEq, if_true, if_false]
    exact addIE_isFloat (mulIE_isFloat hpf (divIE_isFloat (.f _) (subIE_isFloat (mulIE_isFloat hx hx) (mulIE_isFloat (.f _) (.f _))))) (.f _)
  obtain ⟨P, hP, hPe⟩ := (h2 calls).1
  rw [hFF] at hP
  have hax : |a - 1 / 2| ≤ 1 / 2 := by rw [abs_le]; constructor <;> linarith
  have e0 : |FloatFmt.f64.rnd (a - 1 / 2) - (a - 1 / 2)| ≤ 1 / 10 ^ 15 := by
    have h1 := FloatFmt.rnd_err (F := .f64) (a - 1 / 2)
    have h2 : FloatFmt.f64.tiny ≤ 1 := (FloatFmt.tiny_le hF).trans (by norm_num)
    have h4 : FloatFmt.f64.eps = 1 / 2 ^ 53 := eps_f64
    calc _ ≤ _ := h1
      _ ≤ FloatFmt.f64.eps * 2 := mul_le_mul_of_nonneg_left (by linarith) FloatFmt.eps_pos.le
      _ ≤ _ := by rw [h4]; norm_num
  have n0 : FloatFmt.f64.rne (a - 1 / 2) = .f (FloatFmt.f64.rnd (a - 1 / 2)) := FloatFmt.rne_f hF.ok (hax.trans (by
    calc (1 / 2 : ℝ) ≤ 2 ^ 0 := by norm_num
      _ ≤ _ := pow_le_pow_right₀ (by norm_num) (by decide)))
  obtain ⟨x, hx⟩ : ∃ x, x = FloatFmt.f64.rnd (a - 1 / 2) := ⟨_, rfl⟩
  rw [← hx] at e0 n0
  have e0' := abs_le.1 e0
  norm_num at e0'
  have hm : x ∈ Set.Icc (-(4999 / 10000) : ℝ) (4999 / 10000) := ⟨by linarith, by linarith⟩
  obtain ⟨r, z, t1, t2, t3, t4, t5, t6, t8, t7⟩ := qnorm_core (x := x) (y := P x) (Q := qnormPoly x) (E := 4 / 10 ^ 8) (by rw [abs_le]; constructor <;> linarith)
    (qnormPoly_le (abs_le.2 hm)) (by norm_num) (hPe x hm)
  refine ⟨x, z, e0, ?_, t8, t7.trans ?_⟩
  · have hPx : ∀ env : Name → RV, env ["x"] = .f x → e.toR.denote (ieeeInterp .f64 calls) env = .f (P x) := fun env hx => hP env x hx hm
    have hone : binIE .f64 .div (.f 1) (.f (FloatFmt.f64.rnd (FloatFmt.f64.rnd (x * x) - 1 / 4))) = .f r := by rw [binIE_div _ t3, t4]
    have hhalf : FloatFmt.f64.rne (1 / 2 * (1 / 2)) = .f (1 / 4) := by
      have := FloatFmt.rne_eighths hF (x := 1 / 2 * (1 / 2)) 2 (by norm_num) (by norm_num)
      rw [this]; norm_num
    simp only [Gen.qnorm, ofFty_apply, List.map, bindParams, denoteBlock_letT, denoteBlock_letU]
    rw [hPx _ (by
      have n0' := n0
      rw [one_div] at n0'
      simp [numIE_half hF, n0'])]
    simp only [denoteBlock_expr, denote_v, denote_sub, denote_mul, denote_add, denote_div, denote_paren, envSet_one, numIE_half hF, ieee_bin, String.reduceEq, if_true, if_false,
      binIE_mul, binIE_sub, binIE_add, n0, t1, t2, hhalf, hone, t5, add_zero, t6]
  · have : 0 < 1 / 4 - x ^ 2 := by nlinarith [hm.1, hm.2]
    exact div_le_div_of_nonneg_right (by norm_num) this.le

end

end Verif

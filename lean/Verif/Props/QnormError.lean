import Verif.Lemmas.QnormNodes
import Verif.Props.ApproxError
import Verif.Props.Quantile

/-!
# C96: the approximation behind `qnorm`

`stats_norm.rs:44` asks for the odd polynomial that agrees with `Φ⁻¹(x + 1/2) (x² - 1/4)` at 32 Chebyshev nodes of `[-0.4999, 0.4999]`.  It is computed here up to
`10⁻⁸`, which is enough to tell how far the generated `qnorm` is from the quantile.
-/

namespace Verif
open Bd Dec Polynomial

/-- Every probability strictly between 0 and 1 has a quantile. -/
theorem exists_quantile {a : ℝ} (h0 : 0 < a) (h1 : a < 1) : ∃ q, normalCdf q = a := by
  have hc : Continuous normalCdf := continuous_iff_continuousAt.2 fun u => (hasDerivAt_normalCdf u).continuousAt
  have up : ∀ b < 1, ∃ u, b < normalCdf u := fun b hb => (normalCdf_tendsto.eventually (lt_mem_nhds hb)).exists
  obtain ⟨u, hu⟩ := up a h1
  obtain ⟨v, hv⟩ := up (1 - a) (by linarith)
  have hv' : normalCdf (-v) < a := by rw [normalCdf_neg]; linarith
  have hlt : -v < u := normalCdf_strictMono.lt_iff_lt.1 (hv'.trans hu)
  obtain ⟨q, -, hq⟩ := intermediate_value_Icc hlt.le hc.continuousOn ⟨hv'.le, hu.le⟩
  exact ⟨q, hq⟩

/-! ## The nodes -/

theorem qnorm_node {i : ℕ} (hi : i < 32) {d : ℝ}
    (hd : |d - (0 - 4999 / 10000 * Real.cos (Real.pi * i / 31))| ≤ 4999 / 10000 * (1 / 10 ^ 40)) : |d - qnormXs i| ≤ 1 / 10 ^ 19 := by
  obtain ⟨c, hc, hc'⟩ := qnorm_cos i hi
  obtain ⟨ha, hb⟩ := qnorm_angles i hi
  obtain ⟨c', h1, h2⟩ := C24_cos_accurate ⟨qnormAngles.getD i 0, 22⟩ 22 4 (by norm_num) (by exact_mod_cast hb) (by norm_num) (by norm_num)
  rw [show ((22 : ℕ) : Int) = 22 from rfl, hc] at h1
  cases h1
  have hval : ((⟨qnormAngles.getD i 0, 22⟩ : Dec).val : ℝ) = (qnormAngles.getD i 0 : ℝ) / 10 ^ 22 := by
    rw [Dec.val]; push_cast; rw [show (-(22 : ℤ)) = -((22 : ℕ) : ℤ) by norm_num, zpow_neg, zpow_natCast]; ring
  rw [hval] at h2
  have hc'' := (Rat.cast_le (K := ℝ)).2 hc'
  have ha' := (Rat.cast_le (K := ℝ)).2 ha
  push_cast at hc'' ha'
  have h3 := Real.abs_cos_sub_cos_le ((qnormAngles.getD i 0 : ℝ) / 10 ^ 22) (Real.pi * i / 31)
  have hi' : (i : ℝ) ≤ 31 := by exact_mod_cast (by omega : i ≤ 31)
  have hi0 : (0 : ℝ) ≤ i := by positivity
  have h4 : |(qnormAngles.getD i 0 : ℝ) / 10 ^ 22 - Real.pi * i / 31| ≤ 2 / 10 ^ 20 := by
    have p1 := Real.pi_gt_d20
    have p2 := Real.pi_lt_d20
    have q : |Real.pi * i / 31 - 3.14159265358979323846 * i / 31| ≤ 1 / 10 ^ 20 := by
      rw [show Real.pi * i / 31 - 3.14159265358979323846 * i / 31 = (Real.pi - 3.14159265358979323846) * (i / 31) by ring, abs_mul,
        abs_of_nonneg (show (0 : ℝ) ≤ i / 31 by positivity), abs_of_nonneg (by linarith)]
      have : (i : ℝ) / 31 ≤ 1 := by linarith
      nlinarith [show (0:ℝ) ≤ i / 31 by positivity]
    rw [abs_le] at q ha' ⊢
    constructor <;> linarith [q.1, q.2, ha'.1, ha'.2]
  generalize (qnormXs i : ℝ) = X at *
  generalize Real.cos (Real.pi * i / 31) = C at *
  have h5 := h3.trans h4
  generalize Real.cos ((qnormAngles.getD i 0 : ℝ) / 10 ^ 22) = C' at *
  generalize (c.val : ℝ) = c at *
  rw [abs_le] at hd hc'' h5 ⊢
  rw [abs_lt] at h2
  norm_num at hd hc'' h5 h2 ⊢
  constructor <;> linarith [hd.1, hd.2, hc''.1, hc''.2, h5.1, h5.2, h2.1, h2.2]

/-- The quantile near a node of the right half. -/
theorem qnorm_near_right {j : ℕ} (hj : j < 16) {d q : ℝ} (hd : |d - qnormX j| ≤ 1 / 10 ^ 19) (hq : normalCdf q = d + 1 / 2) : |q - qnormT j| ≤ 1 / 10 ^ 10 := by
  obtain ⟨h1, h2⟩ := qnorm_quantiles j hj
  have h1 := h1.le
  have h2 := h2.le
  push_cast at h1 h2
  rw [abs_le] at hd ⊢
  have a1 : normalCdf (qnormT j - 1 / 10 ^ 10) < normalCdf q := by rw [hq]; norm_num at h1 hd ⊢; linarith [hd.1]
  have a2 : normalCdf q < normalCdf (qnormT j + 1 / 10 ^ 10) := by rw [hq]; norm_num at h2 hd ⊢; linarith [hd.2]
  have b1 := normalCdf_strictMono.lt_iff_lt.1 a1
  have b2 := normalCdf_strictMono.lt_iff_lt.1 a2
  constructor <;> linarith

theorem qnorm_near {i : ℕ} (hi : i < 32) {d q : ℝ} (hd : |d - qnormXs i| ≤ 1 / 10 ^ 19) (hq : normalCdf q = d + 1 / 2) : |q - qnormTs i| ≤ 1 / 10 ^ 10 := by
  unfold qnormXs at hd
  unfold qnormTs
  split_ifs at hd ⊢ with h
  · have := qnorm_near_right (j := 15 - i) (by omega) (d := -d) (q := -q) (by
      rw [← abs_neg]; convert hd using 2; push_cast; ring) (by rw [normalCdf_neg, hq]; ring)
    rw [← abs_neg]; convert this using 2; push_cast; ring
  · exact qnorm_near_right (by omega) hd hq

theorem qnorm_nodes_small : ∀ j < 16, 0 ≤ qnormX j ∧ qnormX j ≤ 4999 / 10000 ∧ 0 ≤ qnormT j ∧ qnormT j ≤ 4 := by decide +kernel

theorem pow_sub_pow_le {a b : ℝ} {r : ℝ} (ha : |a| ≤ r) (hb : |b| ≤ r) (k : ℕ) : |a ^ (k + 1) - b ^ (k + 1)| ≤ (k + 1) * r ^ k * |a - b| := by
  have hr : 0 ≤ r := (abs_nonneg _).trans ha
  induction k with
  | zero => simp
  | succ k ih =>
    rw [show a ^ (k + 1 + 1) - b ^ (k + 1 + 1) = a * (a ^ (k + 1) - b ^ (k + 1)) + b ^ (k + 1) * (a - b) by ring]
    refine (abs_add_le _ _).trans ?_
    rw [abs_mul, abs_mul, abs_pow]
    have h1 : |b| ^ (k + 1) ≤ r ^ (k + 1) := pow_le_pow_left₀ (abs_nonneg _) hb _
    calc |a| * |a ^ (k + 1) - b ^ (k + 1)| + |b| ^ (k + 1) * |a - b| ≤ r * ((k + 1) * r ^ k * |a - b|) + r ^ (k + 1) * |a - b| := by gcongr
      _ = _ := by push_cast; ring

theorem qnormPoly_lipschitz {a b : ℝ} (ha : |a| ≤ 1 / 2) (hb : |b| ≤ 1 / 2) : |qnormPoly a - qnormPoly b| ≤ 3 * 10 ^ 8 * |a - b| := by
  unfold qnormPoly
  rw [← Finset.sum_sub_distrib]
  refine (Finset.abs_sum_le_sum_abs _ _).trans ?_
  have h := (Rat.cast_le (K := ℝ)).2 qnorm_sums.2.1
  push_cast at h
  refine le_trans ?_ (mul_le_mul_of_nonneg_right h (abs_nonneg (a - b)))
  rw [Finset.sum_mul]
  refine Finset.sum_le_sum fun j _ => ?_
  rw [← mul_sub, abs_mul, mul_assoc]
  refine mul_le_mul_of_nonneg_left ?_ (abs_nonneg _)
  have := pow_sub_pow_le ha hb (2 * j)
  push_cast at this
  exact this

/-- At the nodes the polynomial is what is asked for. -/
theorem qnorm_target {i : ℕ} (hi : i < 32) {d q : ℝ} (hd : |d - qnormXs i| ≤ 1 / 10 ^ 19) (hd2 : |d| ≤ 1 / 2) (hq : normalCdf q = d + 1 / 2) :
    |q * (d ^ 2 - 1 / 4) - qnormPoly d| ≤ 7 / 10 ^ 11 := by
  have key : ∀ j < 16, ∀ d q : ℝ, |d - qnormX j| ≤ 1 / 10 ^ 19 → |d| ≤ 1 / 2 → |q - qnormT j| ≤ 1 / 10 ^ 10 → |q * (d ^ 2 - 1 / 4) - qnormPoly d| ≤ 7 / 10 ^ 11 := by
    intro j hj d q hd hd2 hq
    obtain ⟨n1, n2, n3, n4⟩ := qnorm_nodes_small j hj
    have n1 := (Rat.cast_le (K := ℝ)).2 n1
    have n2 := (Rat.cast_le (K := ℝ)).2 n2
    have n3 := (Rat.cast_le (K := ℝ)).2 n3
    have n4 := (Rat.cast_le (K := ℝ)).2 n4
    have hfit := (Rat.cast_le (K := ℝ)).2 (qnorm_fit j hj)
    push_cast [qnormPolyQ_cast] at n1 n2 n3 n4 hfit
    have hL := qnormPoly_lipschitz hd2 (b := qnormX j) (by rw [abs_of_nonneg n1]; linarith)
    have hL' : |qnormPoly d - qnormPoly (qnormX j)| ≤ 3 / 10 ^ 11 := hL.trans (by norm_num at hd ⊢; linarith)
    generalize (qnormX j : ℝ) = X at *
    generalize (qnormT j : ℝ) = T at *
    have e1 : |(q - T) * (d ^ 2 - 1 / 4)| ≤ 1 / 10 ^ 10 * (1 / 4) := by
      rw [abs_mul]
      refine mul_le_mul hq ?_ (abs_nonneg _) (by norm_num)
      rw [abs_le] at hd2 ⊢
      constructor <;> nlinarith
    have e2 : |T * (d ^ 2 - X ^ 2)| ≤ 4 * (1 / 10 ^ 19) := by
      rw [abs_mul, abs_of_nonneg n3]
      refine mul_le_mul n4 ?_ (abs_nonneg _) (by norm_num)
      rw [show d ^ 2 - X ^ 2 = (d - X) * (d + X) by ring, abs_mul]
      have : |d + X| ≤ 1 := by rw [abs_le] at hd2 ⊢; constructor <;> linarith
      nlinarith [abs_nonneg (d - X), abs_nonneg (d + X)]
    have e : q * (d ^ 2 - 1 / 4) = (q - T) * (d ^ 2 - 1 / 4) + T * (d ^ 2 - X ^ 2) + T * (X ^ 2 - 1 / 4) := by ring
    rw [e]
    generalize (q - T) * (d ^ 2 - 1 / 4) = A at *
    generalize T * (d ^ 2 - X ^ 2) = B at *
    generalize T * (X ^ 2 - 1 / 4) = C at *
    rw [abs_le] at e1 e2 hL' hfit ⊢
    norm_num at e1 e2 hL' hfit ⊢
    constructor <;> linarith [e1.1, e1.2, e2.1, e2.2, hL'.1, hL'.2, hfit.1, hfit.2]
  have hn := qnorm_near hi hd hq
  unfold qnormXs at hd
  unfold qnormTs at hn
  split_ifs at hd hn with h
  · have := key (15 - i) (by omega) (-d) (-q) (by rw [← abs_neg]; convert hd using 2; push_cast; ring) (by rwa [abs_neg])
      (by rw [← abs_neg]; convert hn using 2; push_cast; ring)
    rw [qnormPoly_neg] at this
    rw [← abs_neg]; convert this using 2; ring
  · exact key (i - 16) (by omega) d q hd hd2 hn

/-! ## The samples -/

theorem qnorm_sample (ext : BdExt) (hs : SqrtOk ext) (hf : 562 ≤ ext.fuel) (d : Dec) (h1 : (⟨-4999, 4⟩ : Dec).val ≤ d.val) (h2 : d.val ≤ (⟨4999, 4⟩ : Dec).val)
    {q : ℝ} (hq : normalCdf q = d.val + 1 / 2) :
    ∃ y, sampleAt ext ApproxSpec.qnorm.target ["x"] 40 d = .ok y ∧ |(y.val : ℝ) - q * (d.val ^ 2 - 1 / 4)| ≤ 1 / 10 ^ 35 := by
  have hlo : (⟨-4999, 4⟩ : Dec).val = -(4999 / 10000) := by decide +kernel
  have hhi : (⟨4999, 4⟩ : Dec).val = 4999 / 10000 := by decide +kernel
  rw [hlo] at h1
  rw [hhi] at h2
  have h1' := (Rat.cast_le (K := ℝ)).2 h1
  have h2' := (Rat.cast_le (K := ℝ)).2 h2
  push_cast at h1' h2'
  have l5 : EvalsTo ext 40 (ApproxSpec.num "0.5") ((1 / 2 : ℚ) : ℝ) 0 := C67_lit (by decide +kernel)
  have l0 : EvalsTo ext 40 (ApproxSpec.int "0") ((0 : ℚ) : ℝ) 0 := C67_lit (by decide +kernel)
  have l1 : EvalsTo ext 40 (ApproxSpec.int "1") ((1 : ℚ) : ℝ) 0 := C67_lit (by decide +kernel)
  have e1 : EvalsTo ext 40 (.paren (.binary (exprOfDec d) .add (ApproxSpec.num "0.5"))) ((d.val + 1 / 2 : ℚ) : ℝ) 0 := by
    have := C67_paren (C67_add (evalsTo_exprOfDec ext 40 d) l5)
    push_cast at this ⊢
    simpa using this
  have e2 := C89_qnorm_evaluates hs (by norm_num) (by norm_num) (by omega) e1 l0 l1 (by linarith) (by linarith) q (by push_cast; exact hq)
  have e3 := (C67_paren (C67_sub (C67_mul (evalsTo_exprOfDec ext 40 d) (evalsTo_exprOfDec ext 40 d)) (C67_mul l5 l5)))
  have e4 := C67_mul e2 e3
  refine sampleAt_of_evalsTo (s := .binary (.methodCall (.paren (.binary (exprOfDec d) .add (ApproxSpec.num "0.5"))) "qnorm" [ApproxSpec.int "0", ApproxSpec.int "1"]) .mul
    (.paren (.binary (.binary (exprOfDec d) .mul (exprOfDec d)) .sub (.binary (ApproxSpec.num "0.5") .mul (ApproxSpec.num "0.5"))))) rfl ?_
  push_cast at e4
  have hv : (d.val : ℝ) * d.val - 1 / 2 * (1 / 2) = d.val ^ 2 - 1 / 4 := by ring
  rw [hv] at e4
  refine e4.mono ?_
  have hq4 : |q| ≤ 4 := by
    have n4 := normalCdf_four
    have a1 : normalCdf q < normalCdf 4 := by rw [hq]; norm_num at n4 ⊢; linarith
    have a2 : normalCdf (-4) < normalCdf q := by rw [hq, normalCdf_neg]; norm_num at n4 ⊢; linarith
    exact abs_le.2 ⟨(normalCdf_strictMono.lt_iff_lt.1 a2).le, (normalCdf_strictMono.lt_iff_lt.1 a1).le⟩
  have hd4 : |(d.val : ℝ) ^ 2 - 1 / 4| ≤ 1 / 4 := by rw [abs_le]; constructor <;> nlinarith
  simp only [mul_zero, add_zero, zero_add]
  have : |q| * (1 / 2 * (1 / 10 ^ 40) + 1 / 2 * (1 / 10 ^ 40)) ≤ 4 * (1 / 2 * (1 / 10 ^ 40) + 1 / 2 * (1 / 10 ^ 40)) := by gcongr
  have h6 : |(d.val : ℝ) ^ 2 - 1 / 4| * (5200 / 10 ^ 40) ≤ 1 / 4 * (5200 / 10 ^ 40) := by gcongr
  norm_num at this h6 ⊢
  linarith

/-! ## The terms -/

/-- The polynomial, as one. -/
noncomputable def qnormP : ℝ[X] := ∑ j ∈ Finset.range 16, C (qnormC j : ℝ) * X ^ (2 * j + 1)

theorem qnormP_eval (t : ℝ) : qnormP.eval t = qnormPoly t := by
  unfold qnormP qnormPoly
  rw [eval_finsetSum]
  simp

theorem qnormP_degree : qnormP.degree < (31 + 1 : ℕ) := by
  unfold qnormP
  refine lt_of_le_of_lt (degree_sum_le _ _) ?_
  rw [Finset.sup_lt_iff (by exact WithBot.bot_lt_coe _)]
  intro j hj
  refine lt_of_le_of_lt (degree_C_mul_X_pow_le _ _) ?_
  have := Finset.mem_range.1 hj
  exact_mod_cast (by omega : 2 * j + 1 < 31 + 1)

theorem qnorm_ddBounded : DDBounded qnormPoly 31 (-(4999 / 10000)) (4999 / 10000) (7 * 10 ^ 23) := by
  have h := (Rat.cast_le (K := ℝ)).2 qnorm_sums.2.2
  push_cast at h
  have := ddBounded_of_series qnormPoly (fun j : Fin 16 => (qnormC j : ℝ)) (fun j => 2 * (j : ℕ) + 1) 31 (w := 4999 / 10000) (r := 1 / 2) (by norm_num) (by norm_num) (by norm_num)
    (fun t _ => by
      have := hasSum_fintype fun j : Fin 16 => (qnormC j : ℝ) * t ^ (2 * (j : ℕ) + 1)
      rwa [Fin.sum_univ_eq_sum_range (fun j => (qnormC j : ℝ) * t ^ (2 * j + 1))] at this)
    (hasSum_fintype _)
  intro x a s has hi hx
  refine (this x a s has hi hx).trans ?_
  rw [Fin.sum_univ_eq_sum_range (fun j => |(qnormC j : ℝ)| * (4999 / 10000 + 1 / 2) ^ (2 * j + 1)), div_le_iff₀ (by positivity)]
  refine h.trans ?_
  norm_num

theorem qnorm_nearPoly : NearPoly qnormPoly 31 (4999 / 10000) 0 4728352 := by
  intro γ hγ
  refine ⟨qnormP, qnormP_degree, fun t _ => by rw [qnormP_eval, sub_self, abs_zero]; linarith, ?_⟩
  have h := (Rat.cast_le (K := ℝ)).2 qnorm_sums.1
  push_cast at h
  refine le_trans ?_ h
  unfold qnormP
  have key : ∀ s : Finset ℕ, absSum (31 + 1) (∑ j ∈ s, C (qnormC j : ℝ) * X ^ (2 * j + 1)) (4999 / 10000) ≤ ∑ j ∈ s, |(qnormC j : ℝ)| * (4999 / 10000) ^ (2 * j + 1) := by
    intro s
    induction s using Finset.induction_on with
    | empty => simp [absSum]
    | insert j s hj ih =>
      rw [Finset.sum_insert hj, Finset.sum_insert hj]
      refine (absSum_add _ _ _ (by norm_num)).trans (add_le_add ?_ ih)
      rw [absSum_C_mul]
      refine mul_le_mul_of_nonneg_left ?_ (abs_nonneg _)
      unfold absSum
      simp only [coeff_X_pow]
      rw [Finset.sum_congr rfl (g := fun i => if i = 2 * j + 1 then (4999 / 10000 : ℝ) ^ i else 0) fun i _ => by split_ifs <;> simp, Finset.sum_ite_eq' (Finset.range (31 + 1))]
      split_ifs
      · exact le_rfl
      · positivity
  exact key _

/-- **C96** The polynomial that the generator of the 64-bit `qnorm` finds, and how closely: on all of `[-0.4999, 0.4999]` its value is that of the odd polynomial
with the coefficients `qnormInts`, up to `10⁻⁸`. -/
theorem C96_terms (ext : BdExt) (hs : SqrtOk ext) (hf : 562 ≤ ext.fuel) : WithinTerms ext .qnorm (31 + 1) 40 qnormPoly (1 / 10 ^ 8) := by
  have hlo : (⟨-4999, 4⟩ : Dec).val = -(4999 / 10000) := by decide +kernel
  have hhi : (⟨4999, 4⟩ : Dec).val = 4999 / 10000 := by decide +kernel
  have hloR : ((⟨-4999, 4⟩ : Dec).val : ℝ) = -(4999 / 10000) := by rw [hlo]; push_cast; ring
  have hhiR : ((⟨4999, 4⟩ : Dec).val : ℝ) = 4999 / 10000 := by rw [hhi]; push_cast; ring
  have hc : (((⟨4999, 4⟩ : Dec).val : ℝ) + (⟨-4999, 4⟩ : Dec).val) / 2 = 0 := by rw [hloR, hhiR]; ring
  have hh : (((⟨4999, 4⟩ : Dec).val : ℝ) - (⟨-4999, 4⟩ : Dec).val) / 2 = 4999 / 10000 := by rw [hloR, hhiR]; ring
  have hM : ((7 * 10 ^ 23 : ℚ) + (1 / 10 ^ 10 + (31 : ℕ) * (1 / 2 / 10 ^ 99 * (7 * 10 ^ 23) + 1 / 2 / 10 ^ 40)) *
    ∏ j ∈ Finset.range 31, ((((31 : ℕ) : ℚ) / (j + 1)) ^ 2 * (101 / 100 / (4999 / 10000)))) ≤ 10 ^ 25 := by decide +kernel
  have hM' := (Rat.cast_le (K := ℝ)).2 hM
  push_cast at hM'
  obtain ⟨terms, r, a1, a2, a3, P, xs, b1, b2, -, b4, b5, b6⟩ := approx_nodes ext ApproxSpec.qnorm.target 31 40 (by norm_num) (by norm_num) (by norm_num) ⟨-4999, 4⟩ ⟨4999, 4⟩
    (by rw [hlo, hhi]; norm_num) (by rw [hlo, hhi]; norm_num) (by norm_num) (by norm_num) ["x"] .odd rfl qnormPoly (7 * 10 ^ 23) (1 / 10 ^ 10) (10 ^ 25) (4999 / 10000)
    (by rw [hloR, hhiR]; exact qnorm_ddBounded) (by positivity) (by
      intro i hi d d1 d2 d3
      have d1' := (Rat.cast_le (K := ℝ)).2 d1
      have d2' := (Rat.cast_le (K := ℝ)).2 d2
      rw [hloR] at d1'
      rw [hhiR] at d2'
      rw [hc, hh, show Real.pi * i / ((31 + 1 : ℕ) - 1) = Real.pi * i / 31 by norm_num] at d3
      obtain ⟨q, hq⟩ := exists_quantile (a := (d.val : ℝ) + 1 / 2) (by linarith) (by linarith)
      obtain ⟨y, y1, y2⟩ := qnorm_sample ext hs hf d d1 d2 hq
      refine ⟨y, y1, ?_⟩
      have h3 := qnorm_target (by omega : i < 32) (qnorm_node (by omega) d3) (by rw [abs_le]; constructor <;> linarith) hq
      have h4 := abs_sub_le (y.val : ℝ) (q * ((d.val : ℝ) ^ 2 - 1 / 4)) (qnormPoly d.val)
      refine h4.trans ((add_le_add y2 h3).trans (by norm_num)))
    (by rw [hh]; unfold ddAmp; push_cast; exact hM') (by rw [hlo]; norm_num) (by rw [hhi]; norm_num)
  refine ⟨⟨-4999, 4⟩, ⟨4999, 4⟩, r, terms, rfl, a1, a2, a3, by norm_num, rfl, fun t ht => ?_⟩
  refine parity_sum (parity := .odd) (f := qnormPoly) (xmin := ⟨-4999, 4⟩) (xmax := ⟨4999, 4⟩) ⟨by rw [hlo, hhi], qnormPoly_neg⟩ 31 (fun i => (valAt terms i : ℝ)) (fun t ht => ?_) ht
  rw [← b2, ← qnormP_eval, ← eval_sub]
  have hres : 3 * (31 + 1) * (nodeResidual 31 40 (4999 / 10000 - -(4999 / 10000)) (4999 / 10000) (10 ^ 25) + 1 / 10 ^ 10) ≤ 1 / 10 ^ 8 := by decide +kernel
  have hres' := (Rat.cast_le (K := ℝ)).2 hres
  push_cast at hres'
  have hsm := b4.small b5 (P - qnormP) (lt_of_le_of_lt (degree_sub_le _ _) (max_lt b1 qnormP_degree)) _ (fun i hi => by
    rw [eval_sub, qnormP_eval]; exact b6 i hi) t (by
      rw [hc, hh, sub_zero]
      rw [hloR, hhiR] at ht
      exact abs_le.2 ht)
  refine hsm.trans ?_
  rw [hlo, hhi]
  push_cast
  exact hres'

end Verif

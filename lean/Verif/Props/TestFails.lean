import Verif.Props.TestPasses
import Verif.Props.IeeeArea

/-!
# C100 An accuracy test that the generated 64-bit library fails
-/

namespace Verif
open RExpr Dec

/-! ## Failing at one sample -/

section
variable {b32 : Bool}

/-- The measured error of a row from below. -/
theorem row_far {c dy de V : ℝ} (hc : |c| ≤ 2 ^ 90) (h1 : |dy + de - V| ≤ 5200 / 10 ^ configDigits b32) (h2 : |de| ≤ 2 / 10 ^ 6 * (|V| + 1)) (hV : |V| ≤ 99) :
    |dy - V| ≤ 3 / 10 ^ 6 * (|V| + 1) ∧ ∃ m, refErrorIE (fmtOf b32) (.f c) ((fmtOf b32).rne dy) ((fmtOf b32).rne de) = .f m ∧
      (1 - 3 * (fmtOf b32).eps) * |c - V| - (1 + 3 * (fmtOf b32).eps) * |(fmtOf b32).rnd dy - dy| - (fmtOf b32).eps / 100 ≤ m := by
  have hδ := table_error b32
  have hε0 := FloatFmt.eps_pos (F := fmtOf b32)
  have hε1 := eps_fmtOf b32
  have hτ1 := FloatFmt.tiny_le (FloatFmt.wide_fmtOf b32)
  have hV0 := abs_nonneg V
  have he1 : |de| ≤ 1 := h2.trans (by norm_num; linarith)
  have hd : |dy - V| ≤ |de| + 1 / 1000 * (fmtOf b32).eps := by
    calc |dy - V| = |(dy + de - V) - de| := by congr 1; ring
      _ ≤ |dy + de - V| + |de| := abs_sub _ _
      _ ≤ _ := by linarith
  norm_num at h2 hε1 hτ1
  have hy : |dy| ≤ 101 := by
    have := abs_sub_abs_le_abs_sub dy V
    linarith
  obtain ⟨m, hm, hb⟩ := measured_sharp (b32 := b32) (c := c) (y := dy) (e := de) hc hy he1
  refine ⟨by norm_num; linarith, m, hm, ?_⟩
  have hη := abs_nonneg ((fmtOf b32).rnd dy - dy)
  generalize (fmtOf b32).eps = ε at *
  generalize (fmtOf b32).tiny = τ at *
  generalize |(fmtOf b32).rnd dy - dy| = η at *
  have k := h1.trans hδ
  have k1 : |c - (dy + de)| ≤ |c - V| + 1 / 1000 * ε := by
    calc |c - (dy + de)| = |(c - V) - (dy + de - V)| := by congr 1; ring
      _ ≤ _ := (abs_sub _ _).trans (by linarith)
  have k2 : |c - V| ≤ |c - (dy + de)| + 1 / 1000 * ε := by
    calc |c - V| = |(c - (dy + de)) + (dy + de - V)| := by congr 1; ring
      _ ≤ _ := (abs_add_le _ _).trans (by linarith)
  have k3 : ε * (3 * |c - (dy + de)| + 4 * |de| + 8 * τ) ≤ ε * (3 * |c - V| + 1 / 200) := by
    refine mul_le_mul_of_nonneg_left ?_ hε0.le
    norm_num; linarith
  have := (abs_le.1 hb).1
  linarith

end

theorem of_unwrap_ok {α : Type} {r : Res α} {a : α} (h : r.unwrap = .ok a) : r = .ok a := by
  cases r <;> simp_all [Res.unwrap]

/-- How the entries of a row come about: the sample is rounded, and so is the value of the reference. -/
theorem row_entries {ext : BdExt} {n bits N i : ℕ} {ref tmin tmax : Expr} {dx dy de : Dec}
    (h : sampleRow ext n bits ref tmin tmax N i = .ok (exprOfDec dx, exprOfDec dy, exprOfDec de)) :
    eval ext n (roundIeeeExpr (samplePoint tmin tmax N i) bits) = .ok (exprOfDec dx) ∧
      ∃ v dv, eval ext n v = .ok v ∧ exprToDec v = .ok dv ∧ dv.val = dy.val + de.val ∧ eval ext n (roundIeeeExpr v bits) = .ok (exprOfDec dy) := by
  have h0 := C72_row h
  simp only [sampleRow, Res.bind_eq_ok] at h
  obtain ⟨x', hx, sub, hsub, v, hv, y', hy, ye', hye, h⟩ := h
  have hx' : x' = exprOfDec dx := congrArg Prod.fst (Res.ok.inj h)
  have hy' : y' = exprOfDec dy := congrArg (fun p => p.2.1) (Res.ok.inj h)
  have hye' : ye' = exprOfDec de := congrArg (fun p => p.2.2) (Res.ok.inj h)
  subst hx' hy' hye'
  refine ⟨of_unwrap_ok hx, ?_⟩
  replace hv := of_unwrap_ok hv
  replace hy := of_unwrap_ok hy
  replace hye := of_unwrap_ok hye
  have hyy := hy
  rw [roundIeeeExpr, eval] at hy
  simp only [Res.bind_eq_ok] at hy
  obtain ⟨r, hr, _, _, dv, hdv, _, _, _, _, _⟩ := hy
  have hvr : r = v := by
    rcases eval_shape (ext := ext) (n : ℤ) _ _ hv with h | ⟨b, f, rfl⟩
    · rw [h] at hr; cases hr; rfl
    · exfalso
      rw [eval, Res.bind_eq_ok] at hr
      obtain ⟨t, _, hr⟩ := hr
      cases hr
      simp [exprToDec] at hdv
  subst hvr
  refine ⟨r, dv, hr, hdv, ?_, hyy⟩
  rw [eval_binary hr hyy hdv (exprToDec_exprOfDec _)] at hye
  injection hye with hye
  have h5 := exprToDec_exprOfDec de
  rw [← hye, exprToDec_exprOfDec] at h5
  injection h5 with h5
  have h6 : de.val = dv.val - dy.val := by rw [← val_canon de, ← h5, val_canon, Dec.val_sub, val_canon]
  rw [h6]; ring

/-- If the function returns floats at all samples and is too far off at one of them, then the test fails. -/
theorem fails_at {ext : BdExt} (hs : SqrtOk ext) (hf : 600 ≤ ext.fuel) (hr : RoundsNear ext) (b32 : Bool) (s : TestSpec) (hm : s ∈ testSpecs)
    (tmin tmax : Expr) (k32 k64 : ℚ) (N : ℕ) (ht : s.test = .maxAbs tmin tmax k32 k64 N) {V : ℝ → ℝ} {a b : ℝ}
    (hV : ∀ V' a' b', (s.name, some (V', a', b')) ∈ testMeaning → V' = V ∧ a' = a ∧ b' = b) {f : RV → RV}
    (hfl : ∀ j < N, ∀ x : ℝ, |x - (a + j * (b - a) / N)| ≤ 2 / 10 ^ 5 → ∃ c, f (.f ((fmtOf b32).rnd x)) = .f c ∧ |c| ≤ 2 ^ 90) {i : ℕ} (hi : i < N)
    (hbad : ∀ dx dy de : Dec, sampleRow ext (configDigits b32) (if b32 then 32 else 64) s.ref tmin tmax N i = .ok (exprOfDec dx, exprOfDec dy, exprOfDec de) →
      |((dy.val : ℝ) + de.val) - V dx.val| ≤ 5200 / 10 ^ configDigits b32 → |(dy.val : ℝ) - V dx.val| ≤ 3 / 10 ^ 6 * (|V dx.val| + 1) →
      ∃ c μ, f (.f ((fmtOf b32).rnd dx.val)) = .f c ∧ |(fmtOf b32).rnd dy.val - dy.val| ≤ μ ∧
        ((accuracyLimit b32 k32 k64 : ℚ) : ℝ) < (1 - 3 * (fmtOf b32).eps) * |c - V dx.val| - (1 + 3 * (fmtOf b32).eps) * μ - (fmtOf b32).eps / 100) :
    ∃ rows, testRows ext b32 s.ref tmin tmax N = .ok rows ∧ ¬TestPassesIE (fmtOf b32) (rows.map (rowIE (fmtOf b32))) (limitIE b32 k32 k64) f := by
  obtain ⟨rows, V', a', b', dx, dy, de, h1, hmem, hrows, g⟩ := test_rows_data hs hf hr b32 s hm tmin tmax k32 k64 N ht
  obtain ⟨rfl, rfl, rfl⟩ := hV _ _ _ hmem
  have hL := limit_le b32 s hm _ _ _ _ _ ht
  have hε0 : 0 < (fmtOf b32).eps := FloatFmt.eps_pos
  have hx11 : ∀ i < N, |((dx i).val : ℝ)| ≤ 2 ^ 100 := fun i hi => (g i hi).2.2.2.2.1.trans (by norm_num)
  refine ⟨rows, h1, fun hp => ?_⟩
  change TestPassesIE _ _ (.f _) _ at hp
  rw [C92_passes_iff _ _ _ (Rat.cast_nonneg.2 hL.1), hrows, List.map_map] at hp
  · have h2 := hp _ (List.mem_map_of_mem (List.mem_range.2 hi))
    simp only [Function.comp, rowIE, emittedIE_dec] at h2
    rw [rne_small (hx11 i hi)] at h2
    obtain ⟨q0, q1, q2, q3, -, q5⟩ := g i hi
    push_cast at q1
    obtain ⟨c', hc', hsm⟩ := hfl i hi _ q0
    obtain ⟨hn, m, hm, hb⟩ := row_far (b32 := b32) hsm q1 q2 q3
    obtain ⟨c, μ, hc, hμ, hlt⟩ := hbad _ _ _ q5 q1 hn
    rw [hc] at hc'
    injection hc' with hc'
    subst hc'
    rw [hc, hm] at h2
    rcases h2 with h2 | ⟨m', h2, h3⟩
    · cases h2
    · injection h2 with h2
      subst h2
      have h4 := mul_le_mul_of_nonneg_left hμ (show 0 ≤ 1 + 3 * (fmtOf b32).eps by linarith)
      linarith
  · intro r hr'
    rw [hrows, List.map_map] at hr'
    obtain ⟨j, hj, rfl⟩ := List.mem_map.1 hr'
    have hj' := List.mem_range.1 hj
    obtain ⟨q0, q1, q2, q3, -⟩ := g j hj'
    push_cast at q1
    obtain ⟨c, hc, hsm⟩ := hfl j hj' _ q0
    obtain ⟨-, m, hm, -⟩ := row_far (b32 := b32) hsm q1 q2 q3
    simp only [Function.comp, rowIE, emittedIE_dec, rne_small (hx11 j hj')]
    rw [hc, hm]; constructor

/-- Rounding to 64 bits takes the decimals within `r` of the number `q` to decimals within `s` of it. -/
def KeepsNumber (ext : BdExt) (q r s : ℚ) : Prop :=
  ∀ d : Dec, |d.val - q| ≤ r → ∃ b d', ext.toF64 d = some b ∧ ext.fromF64 b = some d' ∧ |d'.val - q| ≤ s

/-- What is written for a value at such a number. -/
theorem KeepsNumber.sample {ext : BdExt} {q r s : ℚ} (h : KeepsNumber ext q r s) {n : ℕ} {e : Expr} {δ : ℝ} (he : EvalsTo ext n e q δ) (hδ : δ ≤ r) {d : Dec}
    (hd : eval ext n (roundIeeeExpr e 64) = .ok (exprOfDec d)) : |(d.val : ℝ) - q| ≤ s := by
  obtain ⟨t, p, h1, h2, h3⟩ := he
  have h3' : |p.val - q| ≤ r := by
    rw [← Rat.cast_le (K := ℝ)]
    push_cast
    exact h3.trans hδ
  obtain ⟨b, w, a1, a2, a3⟩ := h p h3'
  obtain ⟨t2, d2, b1, b2, b3⟩ := evals_usize (ext := ext) (n := n) 64
  have hv' : d2.val = 64 := by
    have hv : (d2.val : ℝ) = ((64 : ℕ) : ℝ) := sub_eq_zero.1 (abs_eq_zero.1 (le_antisymm b3 (abs_nonneg _)))
    rw [← Rat.cast_natCast (α := ℝ)] at hv
    exact Rat.cast_injective hv
  have h4 : eval ext n (roundIeeeExpr e 64) = .ok (exprOfDec w) := by
    refine eval_method1 h1 h2 b1 b2 ?_
    show Bd.roundIeee ext p d2 n = _
    rw [(C34_accepts ext p d2 n).2 hv', a1]
    simp only [a2]
  rw [hd] at h4
  injection h4 with h4
  have h5 := exprToDec_exprOfDec d
  rw [h4, exprToDec_exprOfDec] at h5
  injection h5 with h5
  have h6 : d.val = w.val := by rw [← val_canon d, ← h5, val_canon]
  rw [h6]
  rw [← Rat.cast_le (K := ℝ)] at a3
  push_cast at a3
  exact a3

/-! ## `acos` -/

/-- The relative precision of the 64-bit format. -/
def ulp64 : ℚ := 1 / 2 ^ 53

theorem eps_ulp64 : (fmtOf false).eps = ulp64 := by rw [eps_f64]; norm_num [ulp64]

/-- Bounds of the coefficients of `acos` at 64 bits. -/
def acosBox : List (ℚ × ℚ) :=
  [(0, 0), (2000000000000002219114207 / 2000000000000000000000000, 1000000000000001110467849 / 1000000000000000000000000),
  (0, 0), (833333292560070124194601 / 5000000000000000000000000, 833333374094507837288771 / 5000000000000000000000000),
  (0, 0), (187499959779441781347943 / 2500000000000000000000000, 187500041313879494442113 / 2500000000000000000000000),
  (0, 0), (223214044399786364346021 / 5000000000000000000000000, 446428741075074433445401 / 10000000000000000000000000),
  (0, 0), (9494521277544265646551 / 312500000000000000000000, 303825985432419910196349 / 10000000000000000000000000),
  (0, 0), (223586071909754055613053 / 10000000000000000000000000, 111794340505880437313243 / 5000000000000000000000000),
  (0, 0), (7021485731988522605807 / 400000000000000000000000, 4388559037593167579301 / 250000000000000000000000),
  (0, 0), (59373683349065890186231 / 5000000000000000000000000, 7422362694134941026637 / 625000000000000000000000),
  (0, 0), (135444175781568041415829 / 5000000000000000000000000, 270909224379190634939117 / 10000000000000000000000000),
  (0, 0), (-373266139595608971911247 / 5000000000000000000000000, -746490533559108839607577 / 10000000000000000000000000),
  (0, 0), (346730990103640309417611 / 1000000000000000000000000, 1733696696150310651302971 / 5000000000000000000000000),
  (0, 0), (-9934795053028305182799261 / 10000000000000000000000000, -4967314035249934382969799 / 5000000000000000000000000),
  (0, 0), (21679519845402741079190507 / 10000000000000000000000000, 10839926905229806956454917 / 5000000000000000000000000),
  (0, 0), (-8295717641044036731031491 / 2500000000000000000000000, -33182202634062401256687311 / 10000000000000000000000000),
  (0, 0), (17340812830220172040583191 / 5000000000000000000000000, 34682961520667835416043691 / 10000000000000000000000000),
  (0, 0), (-5509417321516198929039553 / 2500000000000000000000000, -5508749391402453261600897 / 2500000000000000000000000),
  (0, 0), (6665861604781313188706801 / 10000000000000000000000000, 6671205045691278528216059 / 10000000000000000000000000)]

/-- The certificate of `acos`. -/
def acosCert64 : ChebBudget := asinCert 33 40 (13 / 10 ^ 25) (93 * 10 ^ 6) (5 * 10 ^ 8) (625 / 10 ^ 18) (787 / 1000)

theorem acosBox_ok : acosCert64.boxOk .odd (1, 1) (0, 0) acosBox := by decide +kernel
theorem acosBox_small : ∀ r ∈ acosBox, |r.1| ≤ 10 ^ 30 ∧ |r.2| ≤ 10 ^ 30 := by decide +kernel
theorem acos_odd_list : ParityList .odd (monoList 33 acosCert64.l) := by decide +kernel

/-- The sample in question, the 58th of the test. -/
def acosAt : ℚ := -227 / 512
def acosX : Enc := ⟨acosAt, acosAt, 0, true⟩
def acosEnc : Enc := polyEnc ulp64 .odd 33 (litBox ulp64 (1 / 10 ^ 18) acosBox) acosX

theorem acosEnc_ok : acosEnc.ok = true ∧ acosEnc.err ≤ 75 / 100 * ulp64 := by decide +kernel

/-- The interpolant at the sample, and its distance from the arc sine. -/
theorem acos_at : |zEval (acosAt / acosCert64.hi) (monoList 33 acosCert64.l) / 2 ^ 320 + 459343078427344342933630586383 / 10 ^ 30| ≤ 1 / 10 ^ 30 ∧
    |acosCert64.gap (acosAt / acosCert64.hi) - 437957744981720 / 10 ^ 30| ≤ 1 / 10 ^ 30 ∧ acosCert64.residual ≤ 1 / 10 ^ 20 ∧ |acosAt / acosCert64.hi| ≤ 1 := by decide +kernel

section
variable {ext : BdExt} {fx : FloatExt} {b32 : Bool} {P : Gen.Parts} {calls : String → List RV → RV} {g : Name → RV} {v : ℝ}

/-- A declared constant is the float next to a number very close to its meaning. -/
theorem TestLibrary.const_rnd (h : TestLibrary ext fx b32 P calls g v) {name : String} {m : ℝ} (hm : (name, m) ∈ constMeaning) (hm4 : |m| ≤ 4) :
    ∃ y, g [name] = .f ((fmtOf b32).rnd y) ∧ |y - m| ≤ 60 / 10 ^ 20 := by
  obtain ⟨p, hp, h1, l, y, h2, h3, h4⟩ := forall2_get (C69_constants_in_code h.sqrt (by have := h.fuel; omega) b32 (fmtOf b32) calls g) hm
  obtain ⟨l', h5, h6⟩ := h.consts p hp
  rw [h2] at h5
  cases h5
  simp only at h1
  subst h1
  have hF := FloatFmt.wide_fmtOf b32
  have hκ := constErr_le b32
  simp only at h4
  have h4' : |y - m| ≤ constErr b32 := h4
  have hy : |y| ≤ |m| + constErr b32 := by
    have := abs_sub_abs_le_abs_sub y m
    linarith
  have hl : litRV l = .f y := h3
  have hr : g [p.1] = (fmtOf b32).rne y := by rw [h6]; simp [RExpr.denote, ieeeInterp, litIE, hl]
  rw [FloatFmt.rne_f hF.ok (by
    have := (FloatFmt.bias_pow_ge hF).1
    norm_num at this hκ ⊢; linarith)] at hr
  exact ⟨_, hr, h4'.trans hκ⟩

/-- The float `PI_BY_2`. -/
theorem half_pi_f64 (h : TestLibrary ext fx false P calls g v) : g ["PI_BY_2"] = .f (7074237752028440 / 2 ^ 52) := by
  have hp := Real.pi_gt_d20
  have hp' := Real.pi_lt_d20
  obtain ⟨y, h1, h2⟩ := h.const_rnd (name := "PI_BY_2") (m := Real.pi / 2) (by simp [constMeaning]) (by rw [abs_of_pos (by linarith)]; linarith)
  rw [h1]
  have h3 := abs_le.1 h2
  norm_num at h3 hp hp'
  congr 1
  refine FloatFmt.rnd_eq (F := .f64) (E := 0) ⟨7074237752028440, -52, by norm_num, by decide, by decide⟩ (by norm_num) (by decide) ?_ (by norm_num; linarith)
  have e : ((0 : ℤ) - (FloatFmt.f64.mant : ℤ)) = -52 := by decide
  rw [e, abs_lt]
  norm_num
  constructor <;> linarith

/-- The sample is a float. -/
theorem acosAt_rnd {x : ℝ} (hx : |x - acosAt| ≤ 1 / 10 ^ 30) : FloatFmt.f64.rnd x = acosAt := by
  have h1 := abs_le.1 hx
  norm_num [acosAt] at h1
  rw [show x = -(-x) by ring, FloatFmt.rnd_neg]
  have : FloatFmt.f64.rnd (-x) = 227 / 512 := by
    refine FloatFmt.rnd_eq (F := .f64) (E := -2) ⟨227, -9, by norm_num, by decide, by decide⟩ (by norm_num) (by decide) ?_ (by norm_num; linarith)
    have e : ((-2 : ℤ) - (FloatFmt.f64.mant : ℤ)) = -54 := by decide
    rw [e, abs_lt]
    norm_num
    constructor <;> linarith
  rw [this]
  norm_num [acosAt]

/-- The value of the generated 64-bit `acos` at the sample, and its distance from the arc cosine. -/
theorem acos_value (h : TestLibrary ext fx false P calls g v) (hv : v ≤ 1 / 10 ^ 18) :
    calls "acos" [.f acosAt] = .f (4571467534434522 / 2 ^ 51) ∧ 55 / 10 * FloatFmt.f64.eps ≤ Real.arccos acosAt - 4571467534434522 / 2 ^ 51 := by
  have hfit := asin_fits ext h.sqrt (by have := h.fuel; omega) .acos rfl rfl rfl rfl 33 40 rfl (13 / 10 ^ 25) (93 * 10 ^ 6) (5 * 10 ^ 8) (625 / 10 ^ 18) (787 / 1000) acos_ok_34
  obtain ⟨e, h1, h2⟩ := hfit.encCode_interpolant acos_ok_34 acosBox_ok rfl acosBox_small (by norm_num) (by norm_num) h.lits eps_ulp64 (v' := 1 / 10 ^ 18)
    (by push_cast; exact hv) rfl rfl acos_odd_list
  obtain ⟨a1, a2, a3, a4⟩ := acos_at
  obtain ⟨k1, k2⟩ := acosEnc_ok
  have hW : (0 : ℚ) < acosCert64.hi := by decide +kernel
  have hq : (acosAt : ℝ) = acosCert64.hi * (acosAt / acosCert64.hi : ℚ) := by
    have : (acosCert64.hi : ℝ) ≠ 0 := by exact_mod_cast hW.ne'
    push_cast
    rw [mul_div_cancel₀ _ this]
  have hX : acosX.Of (acosAt : ℝ) acosAt := ⟨le_rfl, le_rfl, by simp [acosX]⟩
  have hin : |(acosAt : ℝ)| ≤ acosCert64.hi := by
    rw [hq, abs_mul, abs_of_pos (by exact_mod_cast hW : (0 : ℝ) < acosCert64.hi)]
    have : |((acosAt / acosCert64.hi : ℚ) : ℝ)| ≤ 1 := by exact_mod_cast a4
    exact mul_le_of_le_one_right (by exact_mod_cast hW.le) this
  obtain ⟨y, q, y1, y2, y3, -⟩ := h2 _ _ _ hX hin k1
  -- the polynomial at the sample
  have e1 : acosCert64.interpolant 1 0 acosAt = (zEval (acosAt / acosCert64.hi) (monoList 33 acosCert64.l) / 2 ^ 320 : ℚ) := by
    rw [ChebBudget.interpolant, ← Rat.cast_div, zEval_eq]
    push_cast
    rw [one_mul, add_zero]
    rfl
  have e2 : |acosCert64.interpolant 1 0 acosAt + 459343078427344342933630586383 / 10 ^ 30| ≤ 1 / 10 ^ 30 := by
    rw [e1]
    have := (Rat.cast_le (K := ℝ)).2 a1
    push_cast at this ⊢
    exact this
  have e3 : |q - acosCert64.interpolant 1 0 acosAt| ≤ 1 / 10 ^ 20 := by
    refine y3.trans ?_
    have := (Rat.cast_le (K := ℝ)).2 a3
    push_cast at this
    exact this
  have e4 : |y - q| ≤ 75 / 100 * (1 / 2 ^ 53) := by
    have := (Rat.cast_le (K := ℝ)).2 k2
    push_cast [ulp64] at this
    exact y2.2.2.trans this
  have e5 : |acosCert64.interpolant 1 0 acosAt - Real.arcsin acosAt - acosCert64.gap (acosAt / acosCert64.hi)| ≤ 12 / 10 ^ 25 := by
    have := hfit.far hW _ a4
    rw [one_mul] at this
    change |acosCert64.interpolant 1 0 (acosCert64.hi * (acosAt / acosCert64.hi : ℚ)) - Real.arcsin (acosCert64.hi * (acosAt / acosCert64.hi : ℚ)) -
      acosCert64.gap (acosAt / acosCert64.hi)| ≤ ((12 / 10 ^ 25 : ℚ) : ℝ) at this
    rw [← hq] at this
    push_cast at this
    exact this
  have e6 : |(acosCert64.gap (acosAt / acosCert64.hi) : ℝ) - 437957744981720 / 10 ^ 30| ≤ 1 / 10 ^ 30 := by
    have := (Rat.cast_le (K := ℝ)).2 a2
    push_cast at this
    exact this
  generalize acosCert64.interpolant 1 0 acosAt = I at *
  generalize (acosCert64.gap (acosAt / acosCert64.hi) : ℝ) = G at *
  have hp := Real.pi_gt_d20
  have hp' := Real.pi_lt_d20
  have hε : FloatFmt.f64.eps = 1 / 2 ^ 53 := eps_f64
  rw [abs_le] at e2 e3 e4 e5 e6
  norm_num at e2 e3 e4 e5 e6 hp hp'
  constructor
  · have hP := h.approx .acos (by simp [approxSpecs]) _ _ e rfl h1
    have hfn : LinkedIE .f64 calls g (Gen.acos e.toR) := h.fn "acos" (by decide +kernel) (by rw [← hP]; rfl)
    rw [show calls "acos" [.f acosAt] = _ from hfn [.f acosAt]]
    have hF : FloatFmt.f64.Wide := FloatFmt.wide_fmtOf false
    have hc := half_pi_f64 h
    have ha : (acosAt : ℝ) = -(227 / 512) := by norm_num [acosAt]
    obtain ⟨l1, l2, l3, -, -⟩ := asin_lim false
    change 7 / 10 ≤ FloatFmt.f64.rnd asinLim at l1
    change FloatFmt.f64.rnd asinLim ≤ 71 / 100 at l2
    change 49 / 100 ≤ FloatFmt.f64.rnd (FloatFmt.f64.rnd asinLim * FloatFmt.f64.rnd asinLim) at l3
    have hB := (FloatFmt.bias_pow_ge hF).1
    norm_num at hB
    have haa0 : 0 ≤ (acosAt : ℝ) * acosAt := mul_self_nonneg _
    have haa : (acosAt : ℝ) * acosAt ≤ 3 / 8 := by rw [ha]; norm_num
    have r3 : FloatFmt.f64.rne ((acosAt : ℝ) * acosAt) = .f (FloatFmt.f64.rnd (acosAt * acosAt)) := FloatFmt.rne_f hF.ok (by rw [abs_of_nonneg haa0]; linarith)
    have r1 : FloatFmt.f64.rne (70710678118654752440 / 10 ^ 20) = .f (FloatFmt.f64.rnd asinLim) :=
      FloatFmt.rne_f hF.ok (x := asinLim) (by unfold asinLim; rw [abs_of_nonneg (by norm_num)]; norm_num; linarith)
    have r2 : FloatFmt.f64.rne (FloatFmt.f64.rnd asinLim * FloatFmt.f64.rnd asinLim) = .f (FloatFmt.f64.rnd (FloatFmt.f64.rnd asinLim * FloatFmt.f64.rnd asinLim)) :=
      FloatFmt.rne_f hF.ok (by rw [abs_of_nonneg (by positivity)]; nlinarith)
    have hlt : FloatFmt.f64.rnd ((acosAt : ℝ) * acosAt) < FloatFmt.f64.rnd (FloatFmt.f64.rnd asinLim * FloatFmt.f64.rnd asinLim) := by
      have h3 : FloatFmt.f64.rnd ((acosAt : ℝ) * acosAt) ≤ 3 / 8 := FloatFmt.rnd_le (by have := FloatFmt.repr_eighths hF 3 (by norm_num); norm_num at this ⊢; exact this) haa
      linarith
    have hlit : ∀ env, (num "0.70710678118654752440").denote (ieeeInterp .f64 calls) env = .f (FloatFmt.f64.rnd asinLim) := fun env => by
      rw [denoteIE_num (d := ⟨70710678118654752440, 20⟩) _ _ _ rfl, asin_val.2, r1]
    have r4 : FloatFmt.f64.rne (7074237752028440 / 2 ^ 52 - y) = .f (4571467534434522 / 2 ^ 51) := by
      rw [FloatFmt.rne_f hF.ok (by rw [abs_le]; norm_num; constructor <;> linarith)]
      refine congrArg RV.f ?_
      refine FloatFmt.rnd_eq (F := .f64) (E := 1) ⟨4571467534434522, -51, by norm_num, by decide, by decide⟩ (by norm_num) (by decide) ?_ (by norm_num; linarith)
      have e : ((1 : ℤ) - (FloatFmt.f64.mant : ℤ)) = -51 := by decide
      rw [e, abs_lt]
      norm_num
      constructor <;> linarith
    simp only [Gen.acos, Gen.insideLim, Gen.edgeArg, ofFty_apply, List.map, bindParams]
    simp [hlit, r2, r3, hlt]
    have hy := y1 calls
    change ∀ env, env ["x"] = _ → e.toR.denote (ieeeInterp .f64 calls) env = _ at hy
    rw [hy _ (by simp)]
    simp [hc]
    norm_num at r4 ⊢
    exact r4
  · rw [Real.arccos, hε]
    norm_num
    linarith

/-- **C100** The generated 64-bit `acos` fails the accuracy test `test_acos2` of the library, if the conversions keep the sample -227/512: there the error is more than five
units, the test allows three. -/
theorem C100_acos2_fails (h : TestLibrary ext fx false P calls g v) (hv : v ≤ 1 / 10 ^ 18) (hk : KeepsNumber ext (-227 / 512) (1 / 10 ^ 30) (1 / 10 ^ 30)) :
    ∀ s ∈ testSpecs, s.name = "test_acos2" → ¬AccuracyTest ext false calls g s := by
  intro s hm hn
  have hs : s = TestSpec.maxAbs "acos" "test_acos2" (TestSpec.meth "acos") (TestSpec.app "acos" [.path ["x"]]) (TestSpec.neg (TestSpec.fl "0.5")) (TestSpec.fl "0.5") 3 3 1024 := by
    revert hn; revert s; simp [testSpecs, TestSpec.maxAbs]
  subst hs
  suffices hh : ∃ rows, testRows ext false (TestSpec.meth "acos") (TestSpec.neg (TestSpec.fl "0.5")) (TestSpec.fl "0.5") 1024 = .ok rows ∧
      ¬TestPassesIE .f64 (rows.map (rowIE .f64)) (limitIE false 3 3)
        ((TestSpec.maxAbs "acos" "test_acos2" (TestSpec.meth "acos") (TestSpec.app "acos" [.path ["x"]]) (TestSpec.neg (TestSpec.fl "0.5")) (TestSpec.fl "0.5") 3 3 1024).value .f64 calls g) by
    rintro ⟨rows, h1, h2⟩
    obtain ⟨rows', h3, h4⟩ := hh
    have h5 : rows = rows' := Res.ok.inj (h1.symm.trans h3)
    subst h5
    exact h4 h2
  have hε : FloatFmt.f64.eps = 1 / 2 ^ 53 := eps_f64
  have hF : FloatFmt.f64.Wide := FloatFmt.wide_fmtOf false
  obtain ⟨v1, v2⟩ := acos_value h hv
  refine fails_at h.sqrt h.fuel h.rounds false
    (TestSpec.maxAbs "acos" "test_acos2" (TestSpec.meth "acos") (TestSpec.app "acos" [.path ["x"]]) (TestSpec.neg (TestSpec.fl "0.5")) (TestSpec.fl "0.5") 3 3 1024)
    hm _ _ _ _ _ rfl (V := Real.arccos) (a := -(1 / 2)) (b := 1 / 2) (fun V' a' b' hV => by simpa [testMeaning, TestSpec.maxAbs] using hV)
    (f := TestSpec.value _ .f64 calls g) (fun j hj x hx => ?_) (i := 58) (by norm_num) (fun d dy de hd _ hdy => ?_)
  · obtain ⟨e, k1, k2⟩ := C83_acos h.sqrt (by have := h.fuel; omega) h.lits.ieee (by
      have := h.close; have := h.lits.nonneg
      rw [show (fmtOf false).eps = _ from hε]; norm_num at *; linarith) (by
      have := FloatFmt.tiny_le hF; have := FloatFmt.tiny_pos (F := .f64)
      change FloatFmt.f64.eps * FloatFmt.f64.tiny ≤ _
      rw [hε]; norm_num at *; linarith)
    have hP := h.approx .acos (by simp [approxSpecs]) _ _ e rfl k1
    have hfn : LinkedIE .f64 calls g (Gen.acos e.toR) := h.fn "acos" (by decide +kernel) (by rw [← hP]; rfl)
    have hx1 : |x| ≤ 1 := by
      have h5 := abs_le.1 hx
      have h6 : (j : ℝ) ≤ 1023 := by exact_mod_cast Nat.le_of_lt_succ hj
      have h7 : (0 : ℝ) ≤ j := by positivity
      push_cast at h5
      norm_num at h5
      rw [abs_le]; constructor <;> linarith
    obtain ⟨y, y1, y2⟩ := k2 calls g h.consts (FloatFmt.f64.rnd x) (FloatFmt.rnd_repr _) (FloatFmt.abs_rnd_le ⟨1, 0, by norm_num, by decide, by decide⟩ hx1)
    refine ⟨y, ?_, ?_⟩
    · show calls "acos" [.f (FloatFmt.f64.rnd x)] = _
      rw [show calls "acos" [.f (FloatFmt.f64.rnd x)] = _ from hfn [.f _]]
      exact y1
    · have hu : FloatFmt.f64.eps * (1 + v) + v ≤ 1 := by
        have := h.close; have := h.lits.nonneg
        rw [hε]; norm_num at *; linarith
      have hw : FloatFmt.f64.eps * FloatFmt.f64.tiny ≤ 1 := by
        have := FloatFmt.tiny_le hF; have := FloatFmt.tiny_pos (F := .f64)
        rw [hε]; norm_num at *; linarith
      have hp : FloatFmt.f64.eps ^ (3 / 4 : ℝ) ≤ 1 := Real.rpow_le_one FloatFmt.eps_pos.le (by rw [hε]; norm_num) (by norm_num)
      have hcst := constErr_le false
      have ho : asinOps false * FloatFmt.f64.eps ≤ 1 := by rw [hε]; norm_num [asinOps]
      have ha : acosErr false ≤ 1 := by norm_num [acosErr]
      have he : 17 * FloatFmt.f64.eps ≤ 1 := by rw [hε]; norm_num
      change |y - _| ≤ acosErr false + (FloatFmt.f64.eps * (1 + v) + v) + 36 * (FloatFmt.f64.eps * FloatFmt.f64.tiny) + asinOps false * FloatFmt.f64.eps + constErr false +
        2 * FloatFmt.f64.eps ^ (3 / 4 : ℝ) + 17 * FloatFmt.f64.eps at y2
      have h0 := Real.arccos_nonneg (FloatFmt.f64.rnd x)
      have h1 := Real.arccos_le_pi (FloatFmt.f64.rnd x)
      have h3 := Real.pi_lt_d2
      have := abs_le.1 y2
      norm_num at hcst h3
      rw [abs_le]; norm_num; constructor <;> linarith
  · have hx : |(d.val : ℝ) - acosAt| ≤ 1 / 10 ^ 30 := by
      have hpt := C72_points (ext := ext) (n := configDigits false) (C67_neg evals_half) evals_half 1024 58 (by norm_num) (by norm_num)
      have e : (-(1 / 2) + (58 : ℕ) * (1 / 2 - -(1 / 2)) / (1024 : ℕ) : ℝ) = (acosAt : ℝ) := by norm_num [acosAt]
      rw [e] at hpt
      have := KeepsNumber.sample (ext := ext) (q := acosAt) hk hpt (by norm_num [configDigits]) (row_entries hd).1
      push_cast at this
      exact this
    refine ⟨4571467534434522 / 2 ^ 51, 2 * FloatFmt.f64.eps, ?_, ?_, ?_⟩
    · show calls "acos" [.f (FloatFmt.f64.rnd d.val)] = _
      rw [acosAt_rnd hx]
      exact v1
    · have h0 := Real.arccos_nonneg (d.val : ℝ)
      have h1 := Real.arccos_le_pi (d.val : ℝ)
      have h3 := Real.pi_lt_d2
      rw [abs_of_nonneg h0] at hdy
      have h4 : |(dy.val : ℝ)| ≤ (2 : ℝ) ^ (2 : ℤ) := by
        have := abs_le.1 hdy
        norm_num at this h3 ⊢
        rw [abs_le]; constructor <;> linarith
      refine (FloatFmt.rnd_below (F := .f64) (by decide) h4).trans (le_of_eq ?_)
      rw [show (2 : ℝ) ^ (2 : ℤ) = 4 by norm_num]
      ring
    · have hlip := arcsin_lipschitz (x := acosAt) (c := d.val) (by norm_num [acosAt, abs_le]) (by
        have := abs_le.1 hx
        norm_num [acosAt] at this
        rw [abs_le]; constructor <;> linarith)
      have h1 : Real.arccos acosAt - Real.arccos d.val ≤ 2 / 10 ^ 30 := by
        rw [abs_sub_comm] at hx
        have := abs_le.1 hlip
        rw [Real.arccos, Real.arccos]
        norm_num at hx this ⊢
        linarith
      have h3 : (55 / 10 - 1 / 100) * (1 / 2 ^ 53) ≤ |4571467534434522 / 2 ^ 51 - Real.arccos d.val| := by
        rw [abs_sub_comm]
        refine le_trans ?_ (le_abs_self _)
        rw [hε] at v2
        norm_num at v2 h1 ⊢
        linarith
      show ((accuracyLimit false 3 3 : ℚ) : ℝ) < (1 - 3 * FloatFmt.f64.eps) * |4571467534434522 / 2 ^ 51 - Real.arccos d.val| -
        (1 + 3 * FloatFmt.f64.eps) * (2 * FloatFmt.f64.eps) - FloatFmt.f64.eps / 100
      generalize |4571467534434522 / 2 ^ 51 - Real.arccos d.val| = D at h3 ⊢
      have hlim : ((accuracyLimit false 3 3 : ℚ) : ℝ) = 3 / 2 ^ 53 := by norm_num [accuracyLimit]
      rw [hε, hlim]
      norm_num at h3 ⊢
      linarith

end

/-- Conversions that lose nothing keep every number. -/
theorem tableExt_keeps (q r : ℚ) : KeepsNumber tableExt q r r := by
  intro d hd
  have hv : (⟨d.int * 10 ^ (d.scale.natAbs + 1), d.scale + (d.scale.natAbs + 1 : ℕ)⟩ : Dec).val = d.val := by
    generalize d.scale.natAbs + 1 = k
    have e : -(d.scale + (k : ℤ)) = -d.scale + -(k : ℤ) := by ring
    unfold Dec.val
    simp only [e, zpow_add₀ (show (10 : ℚ) ≠ 0 by norm_num), zpow_neg, zpow_natCast]
    push_cast
    field_simp
  exact ⟨_, _, rfl, by simp only [tableExt, Encodable.encodek]; rfl, by rw [hv]; exact hd⟩

/-- The hypotheses can be met. -/
example : ∃ calls, ∀ s ∈ testSpecs, s.name = "test_acos2" → ¬AccuracyTest tableExt false calls (bitsBy tableExt false) s := by
  obtain ⟨calls, h⟩ := C99_library_exists (ext := tableExt) ⟨longExt_ok.1, longExt_ok.2⟩ (by decide) tableExt_rounds false
  exact ⟨calls, C100_acos2_fails h (by norm_num) (tableExt_keeps _ _)⟩

end Verif

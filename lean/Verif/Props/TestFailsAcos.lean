import Verif.Props.TestFails

/-!
# C103 The generated 64-bit `acos` fails its accuracy test on `[-1, 1]`

The witness is the sample -315/512.
-/

namespace Verif
open RExpr Dec

/-- If the function returns floats at the rows of the table and is too far off at one of them, then the test fails. -/
theorem fails_at_rows {ext : BdExt} (hs : SqrtOk ext) (hf : 600 ≤ ext.fuel) (hr : RoundsNear ext) (b32 : Bool) (s : TestSpec) (hm : s ∈ testSpecs)
    (tmin tmax : Expr) (k32 k64 : ℚ) (N : ℕ) (ht : s.test = .maxAbs tmin tmax k32 k64 N) {V : ℝ → ℝ} {a b : ℝ}
    (hV : ∀ V' a' b', (s.name, some (V', a', b')) ∈ testMeaning → V' = V ∧ a' = a ∧ b' = b) {f : RV → RV}
    (hfl : ∀ j < N, ∀ dx dy de : Dec, sampleRow ext (configDigits b32) (if b32 then 32 else 64) s.ref tmin tmax N j = .ok (exprOfDec dx, exprOfDec dy, exprOfDec de) →
      |(dx.val : ℝ) - (a + j * (b - a) / N)| ≤ 2 / 10 ^ 5 → ∃ c, f (.f ((fmtOf b32).rnd dx.val)) = .f c ∧ |c| ≤ 2 ^ 90) {i : ℕ} (hi : i < N)
    (hbad : ∀ dx dy de : Dec, sampleRow ext (configDigits b32) (if b32 then 32 else 64) s.ref tmin tmax N i = .ok (exprOfDec dx, exprOfDec dy, exprOfDec de) →
      |((dy.val : ℝ) + de.val) - V dx.val| ≤ 5200 / 10 ^ configDigits b32 → |(dy.val : ℝ) - V dx.val| ≤ 3 / 10 ^ 6 * (|V dx.val| + 1) →
      ∃ c μ, f (.f ((fmtOf b32).rnd dx.val)) = .f c ∧ |(fmtOf b32).rnd dy.val - dy.val| ≤ μ ∧
        ((accuracyLimit b32 k32 k64 : ℚ) : ℝ) < (1 - 3 * (fmtOf b32).eps) * |c - V dx.val| - (1 + 3 * (fmtOf b32).eps) * μ - (fmtOf b32).eps / 100) :
    ∃ rows, testRows ext b32 s.ref tmin tmax N = .ok rows ∧ ¬TestPassesIE (fmtOf b32) (rows.map (rowIE (fmtOf b32))) (limitIE b32 k32 k64) f := by
  obtain ⟨rows, V', a', b', dx, dy, de, h1, hmem, hrows, g⟩ := test_rows_data hs hf hr b32 s hm tmin tmax k32 k64 N ht
  obtain ⟨rfl, rfl, rfl⟩ := hV _ _ _ hmem
  have hL := limit_le b32 s hm _ _ _ _ _ ht
  have hε0 : 0 < (fmtOf b32).eps := FloatFmt.eps_pos
  have hx11 : ∀ i < N, |((dx i).val : ℝ)| ≤ 2 ^ 100 := fun i hi => (g i hi).2.2.2.2.1.trans (by norm_num)
  refine ⟨rows, h1, fun hp => ?_⟩
  change TestPassesIE _ _ (.f _) _ at hp
  rw [C92_passes_iff _ _ _ (Rat.cast_nonneg.2 hL.1), hrows, List.map_map] at hp
  · have h2 := hp _ (List.mem_map_of_mem (List.mem_range.2 hi))
    simp only [Function.comp, rowIE, emittedIE_dec] at h2
    rw [rne_small (hx11 i hi)] at h2
    obtain ⟨q0, q1, q2, q3, -, q5⟩ := g i hi
    push_cast at q1
    obtain ⟨c', hc', hsm⟩ := hfl i hi _ _ _ q5 q0
    obtain ⟨hn, m, hm, hb⟩ := row_far (b32 := b32) hsm q1 q2 q3
    obtain ⟨c, μ, hc, hμ, hlt⟩ := hbad _ _ _ q5 q1 hn
    rw [hc] at hc'
    injection hc' with hc'
    subst hc'
    rw [hc, hm] at h2
    rcases h2 with h2 | ⟨m', h2, h3⟩
    · cases h2
    · injection h2 with h2
      subst h2
      have h4 := mul_le_mul_of_nonneg_left hμ (show 0 ≤ 1 + 3 * (fmtOf b32).eps by linarith)
      linarith
  · intro r hr'
    rw [hrows, List.map_map] at hr'
    obtain ⟨j, hj, rfl⟩ := List.mem_map.1 hr'
    have hj' := List.mem_range.1 hj
    obtain ⟨q0, q1, q2, q3, -, q5⟩ := g j hj'
    push_cast at q1
    obtain ⟨c, hc, hsm⟩ := hfl j hj' _ _ _ q5 q0
    obtain ⟨-, m, hm, -⟩ := row_far (b32 := b32) hsm q1 q2 q3
    simp only [Function.comp, rowIE, emittedIE_dec, rne_small (hx11 j hj')]
    rw [hc, hm]; constructor

/-- Two results of one evaluation have the same value. -/
theorem same_val {ext : BdExt} {n : ℕ} {e : Expr} {d w : Dec} (h1 : eval ext n e = .ok (exprOfDec d)) (h2 : eval ext n e = .ok (exprOfDec w)) : d.val = w.val := by
  rw [h1] at h2
  injection h2 with h4
  have h5 := exprToDec_exprOfDec d
  rw [h4, exprToDec_exprOfDec] at h5
  injection h5 with h5
  rw [← val_canon d, ← h5, val_canon]

/-- Rounding to 64 bits takes the decimals within `r` of the number `q` to decimals within `s` of a float. -/
def NearsFloat (ext : BdExt) (q r : ℚ) (s : ℝ) : Prop :=
  ∀ d : Dec, |d.val - q| ≤ r → ∃ b d', ext.toF64 d = some b ∧ ext.fromF64 b = some d' ∧ ∃ z, FloatFmt.f64.Repr z ∧ |(d'.val : ℝ) - z| ≤ s

/-- What is written for a value at such a number. -/
theorem NearsFloat.sample {ext : BdExt} {q r : ℚ} {s : ℝ} (h : NearsFloat ext q r s) {n : ℕ} {e : Expr} {δ : ℝ} (he : EvalsTo ext n e q δ) (hδ : δ ≤ r) {d : Dec}
    (hd : eval ext n (roundIeeeExpr e 64) = .ok (exprOfDec d)) : ∃ z, FloatFmt.f64.Repr z ∧ |(d.val : ℝ) - z| ≤ s := by
  obtain ⟨t, p, h1, h2, h3⟩ := he
  have h3' : |p.val - q| ≤ r := by
    rw [← Rat.cast_le (K := ℝ)]
    push_cast
    exact h3.trans hδ
  obtain ⟨b, w, a1, a2, a3⟩ := h p h3'
  obtain ⟨t2, d2, b1, b2, b3⟩ := evals_usize (ext := ext) (n := n) 64
  have hv' : d2.val = 64 := by
    have hv : (d2.val : ℝ) = ((64 : ℕ) : ℝ) := sub_eq_zero.1 (abs_eq_zero.1 (le_antisymm b3 (abs_nonneg _)))
    rw [← Rat.cast_natCast (α := ℝ)] at hv
    exact Rat.cast_injective hv
  have h4 : eval ext n (roundIeeeExpr e 64) = .ok (exprOfDec w) := by
    refine eval_method1 h1 h2 b1 b2 ?_
    show Bd.roundIeee ext p d2 n = _
    rw [(C34_accepts ext p d2 n).2 hv', a1]
    simp only [a2]
  rw [same_val hd h4]
  exact a3

/-- The first sample does not leave the range. -/
theorem first_sample {ext : BdExt} (hr : RoundsNear ext) {n : ℕ} {tmin tmax : Expr} (hmin : EvalsTo ext n tmin (-1) 0) (hmax : EvalsTo ext n tmax 1 0) {N : ℕ} (hN : 0 < N) {d : Dec}
    (hd : eval ext n (roundIeeeExpr (samplePoint tmin tmax N 0) 64) = .ok (exprOfDec d)) : |d.val| ≤ 1 := by
  obtain ⟨t, p, h1, h2, h3⟩ := first_point hmin hmax N hN
  have hp : p.val = -1 := by
    have : (p.val : ℝ) = -1 := by
      have := abs_eq_zero.1 (le_antisymm h3 (abs_nonneg _)); linarith
    exact_mod_cast this
  obtain ⟨r, r1, -, r2, -⟩ := evals_round (n := n) hr false h1 h2 (by rw [hp]; norm_num)
  rw [same_val hd r1]
  exact r2 (by rw [hp]; norm_num)

/-! ## The function at the sample -/

/-- The sample, number 197 of the test. -/
def acosAt' : ℚ := -315 / 512
/-- The float next to its arc cosine. -/
def acosF : ℚ := 5029348855142898 / 2 ^ 51
def acosX' : Enc := ⟨acosAt', acosAt', 0, true⟩

theorem acosEnc'_ok : (polyEnc ulp64 .odd 33 (litBox ulp64 (1 / 10 ^ 18) acosBox) acosX').ok = true ∧
    (polyEnc ulp64 .odd 33 (litBox ulp64 (1 / 10 ^ 18) acosBox) acosX').err ≤ 1242 / 1000 * ulp64 := by decide +kernel

/-- The interpolant at the sample, and its distance from the arc sine. -/
theorem acos_at' : |zEval (acosAt' / acosCert64.hi) (monoList 33 acosCert64.l) / 2 ^ 320 + 66268323234582930765394424039779 / 10 ^ 32| ≤ 1 / 10 ^ 31 ∧
    |acosCert64.gap (acosAt' / acosCert64.hi) - 50404710049712067 / 10 ^ 32| ≤ 1 / 10 ^ 31 ∧ acosCert64.residual ≤ 1 / 10 ^ 20 ∧ |acosAt' / acosCert64.hi| ≤ 1 := by decide +kernel

/-- A difference half way between two floats goes to the even one. -/
theorem acos_tie : FloatFmt.f64.rnd (10058697710285793 / 2 ^ 52) = 5029348855142896 / 2 ^ 51 := by
  have hl : FloatFmt.f64.lastPlace (10058697710285793 / 2 ^ 52) = -51 := by
    have := FloatFmt.log_of (q := 10058697710285793 / 2 ^ 53) (by norm_num) (by norm_num) 1
    rw [show (10058697710285793 / 2 ^ 53 * (2 : ℝ) ^ (1 : ℤ)) = 10058697710285793 / 2 ^ 52 by norm_num] at this
    rw [FloatFmt.lastPlace, abs_of_pos (by norm_num), this]
    decide
  have hfl : ⌊(10058697710285793 / 2 : ℝ)⌋ = 5029348855142896 := by rw [Int.floor_eq_iff]; norm_num
  have hr : roundEven (10058697710285793 / 2) = 5029348855142896 := by
    rw [roundEven, hfl]
    norm_num
  rw [FloatFmt.rnd, hl, show (10058697710285793 / 2 ^ 52 / (2 : ℝ) ^ (-51 : ℤ)) = 10058697710285793 / 2 by norm_num [zpow_neg], hr]
  norm_num [zpow_neg]

/-- The last difference of `acos`: the polynomial is a multiple of 2^-53, and only two of them are possible. -/
theorem last_step_315 {y : ℝ} (hy : FloatFmt.f64.Repr y) (h1 : -y ≤ (5029348855142896 * 4 + 27 / 10) / 2 ^ 53 - 7074237752028440 / 2 ^ 52)
    (h2 : (5029348855142896 * 4 + 1 / 10) / 2 ^ 53 - 7074237752028440 / 2 ^ 52 ≤ -y) :
    FloatFmt.f64.rnd (7074237752028440 / 2 ^ 52 - y) = 5029348855142896 / 2 ^ 51 := by
  obtain ⟨m, hm⟩ := hy.multiple_of (E := -1) (by
    norm_num at h1 h2 ⊢
    rw [abs_of_neg (by linarith)]; linarith)
  have e : ((-1 : ℤ) - (FloatFmt.f64.mant : ℤ)) = -53 := by decide
  rw [e] at hm
  have hm' : y = m / 2 ^ 53 := by rw [hm]; norm_num [zpow_neg]; ring
  rw [hm'] at h1 h2 ⊢
  have h3 : (-m : ℝ) < 5029348855142896 * 4 + 3 - 7074237752028440 * 2 := by
    norm_num at h1 ⊢; linarith
  have h4 : (5029348855142896 * 4 - 7074237752028440 * 2 : ℝ) < -m := by
    norm_num at h2 ⊢; linarith
  have h5 : -m < 5029348855142896 * 4 + 3 - 7074237752028440 * 2 := by exact_mod_cast h3
  have h6 : 5029348855142896 * 4 - 7074237752028440 * 2 < -m := by exact_mod_cast h4
  obtain h7 | h7 : m = -(5029348855142896 * 4 + 1 - 7074237752028440 * 2) ∨ m = -(5029348855142896 * 4 + 2 - 7074237752028440 * 2) := by omega
  · rw [h7]
    push_cast
    refine FloatFmt.rnd_eq (F := .f64) (E := 1) ⟨5029348855142896, -51, by norm_num, by decide, by decide⟩ (by norm_num) (by decide) ?_ (by norm_num)
    have e : ((1 : ℤ) - (FloatFmt.f64.mant : ℤ)) = -51 := by decide
    rw [e, abs_lt]
    norm_num
  · rw [h7, ← acos_tie]
    push_cast
    congr 1
    norm_num

section
variable {ext : BdExt} {fx : FloatExt} {P : Gen.Parts} {calls : String → List RV → RV} {g : Name → RV} {v : ℝ}

/-- The sample is a float. -/
theorem acosAt'_rnd {x : ℝ} (hx : |x - acosAt'| ≤ 1 / 10 ^ 30) : FloatFmt.f64.rnd x = acosAt' := by
  have h1 := abs_le.1 hx
  norm_num [acosAt'] at h1
  rw [show x = -(-x) by ring, FloatFmt.rnd_neg]
  have : FloatFmt.f64.rnd (-x) = 315 / 512 := by
    refine FloatFmt.rnd_eq (F := .f64) (E := -1) ⟨315, -9, by norm_num, by decide, by decide⟩ (by norm_num) (by decide) ?_ (by norm_num; linarith)
    have e : ((-1 : ℤ) - (FloatFmt.f64.mant : ℤ)) = -53 := by decide
    rw [e, abs_lt]
    norm_num
    constructor <;> linarith
  rw [this]
  norm_num [acosAt']

/-- The value of the generated 64-bit `acos` at the sample, and its distance from the arc cosine. -/
theorem acos_value_315 (h : TestLibrary ext fx false P calls g v) (hv : v ≤ 1 / 10 ^ 18) :
    calls "acos" [.f acosAt'] = .f (5029348855142896 / 2 ^ 51) ∧ 647 / 100 * FloatFmt.f64.eps ≤ Real.arccos acosAt' - 5029348855142896 / 2 ^ 51 ∧
      |Real.arccos acosAt' - (acosF : ℚ)| ≤ 1525 / 1000 / 2 ^ 53 := by
  have hfit := asin_fits ext h.sqrt (by have := h.fuel; omega) .acos rfl rfl rfl rfl 33 40 rfl (13 / 10 ^ 25) (93 * 10 ^ 6) (5 * 10 ^ 8) (625 / 10 ^ 18) (787 / 1000) acos_ok_34
  obtain ⟨e, h1, h2⟩ := hfit.encCode_interpolant acos_ok_34 acosBox_ok rfl acosBox_small (by norm_num) (by norm_num) h.lits eps_ulp64 (v' := 1 / 10 ^ 18)
    (by push_cast; exact hv) rfl rfl acos_odd_list
  obtain ⟨a1, a2, a3, a4⟩ := acos_at'
  obtain ⟨k1, k2⟩ := acosEnc'_ok
  have hW : (0 : ℚ) < acosCert64.hi := by decide +kernel
  have hq : (acosAt' : ℝ) = acosCert64.hi * (acosAt' / acosCert64.hi : ℚ) := by
    have : (acosCert64.hi : ℝ) ≠ 0 := by exact_mod_cast hW.ne'
    push_cast
    rw [mul_div_cancel₀ _ this]
  have hX : acosX'.Of (acosAt' : ℝ) acosAt' := ⟨le_rfl, le_rfl, by simp [acosX']⟩
  have hin : |(acosAt' : ℝ)| ≤ acosCert64.hi := by
    rw [hq, abs_mul, abs_of_pos (by exact_mod_cast hW : (0 : ℝ) < acosCert64.hi)]
    have : |((acosAt' / acosCert64.hi : ℚ) : ℝ)| ≤ 1 := by exact_mod_cast a4
    exact mul_le_of_le_one_right (by exact_mod_cast hW.le) this
  obtain ⟨y, q, y1, y2, y3, y4⟩ := h2 _ _ _ hX hin k1
  -- the polynomial at the sample
  have e1 : acosCert64.interpolant 1 0 acosAt' = (zEval (acosAt' / acosCert64.hi) (monoList 33 acosCert64.l) / 2 ^ 320 : ℚ) := by
    rw [ChebBudget.interpolant, ← Rat.cast_div, zEval_eq]
    push_cast
    rw [one_mul, add_zero]
    rfl
  have e2 : |acosCert64.interpolant 1 0 acosAt' + 66268323234582930765394424039779 / 10 ^ 32| ≤ 1 / 10 ^ 31 := by
    rw [e1]
    have := (Rat.cast_le (K := ℝ)).2 a1
    push_cast at this ⊢
    exact this
  have e3 : |q - acosCert64.interpolant 1 0 acosAt'| ≤ 1 / 10 ^ 20 := by
    refine y3.trans ?_
    have := (Rat.cast_le (K := ℝ)).2 a3
    push_cast at this
    exact this
  have e4 : |y - q| ≤ 1242 / 1000 * (1 / 2 ^ 53) := by
    have := (Rat.cast_le (K := ℝ)).2 k2
    push_cast [ulp64] at this
    exact y2.2.2.trans this
  have e5 : |acosCert64.interpolant 1 0 acosAt' - Real.arcsin acosAt' - acosCert64.gap (acosAt' / acosCert64.hi)| ≤ 12 / 10 ^ 25 := by
    have := hfit.far hW _ a4
    rw [one_mul] at this
    change |acosCert64.interpolant 1 0 (acosCert64.hi * (acosAt' / acosCert64.hi : ℚ)) - Real.arcsin (acosCert64.hi * (acosAt' / acosCert64.hi : ℚ)) -
      acosCert64.gap (acosAt' / acosCert64.hi)| ≤ ((12 / 10 ^ 25 : ℚ) : ℝ) at this
    rw [← hq] at this
    push_cast at this
    exact this
  have e6 : |(acosCert64.gap (acosAt' / acosCert64.hi) : ℝ) - 50404710049712067 / 10 ^ 32| ≤ 1 / 10 ^ 31 := by
    have := (Rat.cast_le (K := ℝ)).2 a2
    push_cast at this
    exact this
  generalize acosCert64.interpolant 1 0 acosAt' = I at *
  generalize (acosCert64.gap (acosAt' / acosCert64.hi) : ℝ) = G at *
  have hp := Real.pi_gt_d20
  have hp' := Real.pi_lt_d20
  have hε : FloatFmt.f64.eps = 1 / 2 ^ 53 := eps_f64
  rw [abs_le] at e2 e3 e4 e5 e6
  norm_num at e2 e3 e4 e5 e6 hp hp'
  refine ⟨?_, ?_, ?_⟩
  · have hP := h.approx .acos (by simp [approxSpecs]) _ _ e rfl h1
    have hfn : LinkedIE .f64 calls g (Gen.acos e.toR) := h.fn "acos" (by decide +kernel) (by rw [← hP]; rfl)
    rw [show calls "acos" [.f acosAt'] = _ from hfn [.f acosAt']]
    have hF : FloatFmt.f64.Wide := FloatFmt.wide_fmtOf false
    have hc := half_pi_f64 h
    have ha : (acosAt' : ℝ) = -(315 / 512) := by norm_num [acosAt']
    obtain ⟨l1, l2, l3, -, -⟩ := asin_lim false
    change 7 / 10 ≤ FloatFmt.f64.rnd asinLim at l1
    change FloatFmt.f64.rnd asinLim ≤ 71 / 100 at l2
    change 49 / 100 ≤ FloatFmt.f64.rnd (FloatFmt.f64.rnd asinLim * FloatFmt.f64.rnd asinLim) at l3
    have hB := (FloatFmt.bias_pow_ge hF).1
    norm_num at hB
    have haa0 : 0 ≤ (acosAt' : ℝ) * acosAt' := mul_self_nonneg _
    have haa : (acosAt' : ℝ) * acosAt' ≤ 31 / 64 := by rw [ha]; norm_num
    have r3 : FloatFmt.f64.rne ((acosAt' : ℝ) * acosAt') = .f (FloatFmt.f64.rnd (acosAt' * acosAt')) := FloatFmt.rne_f hF.ok (by rw [abs_of_nonneg haa0]; linarith)
    have r1 : FloatFmt.f64.rne (70710678118654752440 / 10 ^ 20) = .f (FloatFmt.f64.rnd asinLim) :=
      FloatFmt.rne_f hF.ok (x := asinLim) (by unfold asinLim; rw [abs_of_nonneg (by norm_num)]; norm_num; linarith)
    have r2 : FloatFmt.f64.rne (FloatFmt.f64.rnd asinLim * FloatFmt.f64.rnd asinLim) = .f (FloatFmt.f64.rnd (FloatFmt.f64.rnd asinLim * FloatFmt.f64.rnd asinLim)) :=
      FloatFmt.rne_f hF.ok (by rw [abs_of_nonneg (by positivity)]; nlinarith)
    have hlt : FloatFmt.f64.rnd ((acosAt' : ℝ) * acosAt') < FloatFmt.f64.rnd (FloatFmt.f64.rnd asinLim * FloatFmt.f64.rnd asinLim) := by
      have h3 : FloatFmt.f64.rnd ((acosAt' : ℝ) * acosAt') ≤ 31 / 64 := FloatFmt.rnd_le ⟨31, -6, by norm_num, by decide, by decide⟩ haa
      linarith
    have hlit : ∀ env, (num "0.70710678118654752440").denote (ieeeInterp .f64 calls) env = .f (FloatFmt.f64.rnd asinLim) := fun env => by
      rw [denoteIE_num (d := ⟨70710678118654752440, 20⟩) _ _ _ rfl, asin_val.2, r1]
    have r4 : FloatFmt.f64.rne (7074237752028440 / 2 ^ 52 - y) = .f (5029348855142896 / 2 ^ 51) := by
      rw [FloatFmt.rne_f hF.ok (by rw [abs_le]; norm_num; constructor <;> linarith)]
      refine congrArg RV.f ?_
      exact last_step_315 y4 (by linarith) (by linarith)
    simp only [Gen.acos, Gen.insideLim, Gen.edgeArg, ofFty_apply, List.map, bindParams]
    simp [hlit, r2, r3, hlt]
    have hy := y1 calls
    change ∀ env, env ["x"] = _ → e.toR.denote (ieeeInterp .f64 calls) env = _ at hy
    rw [hy _ (by simp)]
    simp [hc]
    norm_num at r4 ⊢
    exact r4
  · rw [Real.arccos, hε]
    norm_num
    linarith
  · rw [Real.arccos, abs_le]
    norm_num [acosF]
    constructor <;> linarith

/-- **C103** The generated 64-bit `acos` fails the accuracy test `test_acos` of the library, if the conversions keep the sample -315/512 and write the float next to its arc cosine with an
error below 0.45 * 2^-53: there the error is more than 6.4 * 2^-53, the test allows 6 * 2^-53. -/
theorem C103_acos_fails (h : TestLibrary ext fx false P calls g v) (hv : v ≤ 1 / 10 ^ 18) (hk : KeepsNumber ext (-315 / 512) (1 / 10 ^ 30) (1 / 10 ^ 30))
    (hk' : NearsFloat ext acosF (153 / 100 / 2 ^ 53) (45 / 100 / 2 ^ 53)) : ∀ s ∈ testSpecs, s.name = "test_acos" → ¬AccuracyTest ext false calls g s := by
  intro s hm hn
  have hs : s = TestSpec.maxAbs "acos" "test_acos" (TestSpec.meth "acos") (TestSpec.app "acos" [.path ["x"]]) (TestSpec.neg (litInt "1")) (litInt "1") 6 6 1024 := by
    revert hn; revert s; simp [testSpecs, TestSpec.maxAbs]
  subst hs
  suffices hh : ∃ rows, testRows ext false (TestSpec.meth "acos") (TestSpec.neg (litInt "1")) (litInt "1") 1024 = .ok rows ∧
      ¬TestPassesIE .f64 (rows.map (rowIE .f64)) (limitIE false 6 6)
        ((TestSpec.maxAbs "acos" "test_acos" (TestSpec.meth "acos") (TestSpec.app "acos" [.path ["x"]]) (TestSpec.neg (litInt "1")) (litInt "1") 6 6 1024).value .f64 calls g) by
    rintro ⟨rows, h1, h2⟩
    obtain ⟨rows', h3, h4⟩ := hh
    have h5 : rows = rows' := Res.ok.inj (h1.symm.trans h3)
    subst h5
    exact h4 h2
  have hε : FloatFmt.f64.eps = 1 / 2 ^ 53 := eps_f64
  have hF : FloatFmt.f64.Wide := FloatFmt.wide_fmtOf false
  obtain ⟨v1, v2, v3⟩ := acos_value_315 h hv
  have hone : EvalsTo ext (configDigits false) (litInt "1") 1 0 := by simpa using evals_int (ext := ext) (n := configDigits false) "1" 1 rfl
  refine fails_at_rows h.sqrt h.fuel h.rounds false
    (TestSpec.maxAbs "acos" "test_acos" (TestSpec.meth "acos") (TestSpec.app "acos" [.path ["x"]]) (TestSpec.neg (litInt "1")) (litInt "1") 6 6 1024)
    hm _ _ _ _ _ rfl (V := Real.arccos) (a := -1) (b := 1) (fun V' a' b' hV => by simpa [testMeaning, TestSpec.maxAbs] using hV)
    (f := TestSpec.value _ .f64 calls g) (fun j hj dx dy de hd hx => ?_) (i := 197) (by norm_num) (fun d dy de hd hv1 hdy => ?_)
  · obtain ⟨e, k1, k2⟩ := C83_acos h.sqrt (by have := h.fuel; omega) h.lits.ieee (by
      have := h.close; have := h.lits.nonneg
      rw [show (fmtOf false).eps = _ from hε]; norm_num at *; linarith) (by
      have := FloatFmt.tiny_le hF; have := FloatFmt.tiny_pos (F := .f64)
      change FloatFmt.f64.eps * FloatFmt.f64.tiny ≤ _
      rw [hε]; norm_num at *; linarith)
    have hP := h.approx .acos (by simp [approxSpecs]) _ _ e rfl k1
    have hfn : LinkedIE .f64 calls g (Gen.acos e.toR) := h.fn "acos" (by decide +kernel) (by rw [← hP]; rfl)
    have hx1 : |(dx.val : ℝ)| ≤ 1 := by
      rcases Nat.eq_zero_or_pos j with rfl | hj0
      · have := first_sample h.rounds (C67_neg hone) hone (N := 1024) (by norm_num) (row_entries hd).1
        exact_mod_cast this
      · have h5 := abs_le.1 hx
        have h6 : (j : ℝ) ≤ 1023 := by exact_mod_cast Nat.le_of_lt_succ hj
        have h7 : (1 : ℝ) ≤ j := by exact_mod_cast hj0
        push_cast at h5
        norm_num at h5
        rw [abs_le]; constructor <;> linarith
    generalize (dx.val : ℝ) = x at hx1 ⊢
    obtain ⟨y, y1, y2⟩ := k2 calls g h.consts (FloatFmt.f64.rnd x) (FloatFmt.rnd_repr _) (FloatFmt.abs_rnd_le ⟨1, 0, by norm_num, by decide, by decide⟩ hx1)
    refine ⟨y, ?_, ?_⟩
    · show calls "acos" [.f (FloatFmt.f64.rnd x)] = _
      rw [show calls "acos" [.f (FloatFmt.f64.rnd x)] = _ from hfn [.f _]]
      exact y1
    · have hu : FloatFmt.f64.eps * (1 + v) + v ≤ 1 := by
        have := h.close; have := h.lits.nonneg
        rw [hε]; norm_num at *; linarith
      have hw : FloatFmt.f64.eps * FloatFmt.f64.tiny ≤ 1 := by
        have := FloatFmt.tiny_le hF; have := FloatFmt.tiny_pos (F := .f64)
        rw [hε]; norm_num at *; linarith
      have hp : FloatFmt.f64.eps ^ (3 / 4 : ℝ) ≤ 1 := Real.rpow_le_one FloatFmt.eps_pos.le (by rw [hε]; norm_num) (by norm_num)
      have hcst := constErr_le false
      have ho : asinOps false * FloatFmt.f64.eps ≤ 1 := by rw [hε]; norm_num [asinOps]
      have ha : acosErr false ≤ 1 := by norm_num [acosErr]
      have he : 17 * FloatFmt.f64.eps ≤ 1 := by rw [hε]; norm_num
      change |y - _| ≤ acosErr false + (FloatFmt.f64.eps * (1 + v) + v) + 36 * (FloatFmt.f64.eps * FloatFmt.f64.tiny) + asinOps false * FloatFmt.f64.eps + constErr false +
        2 * FloatFmt.f64.eps ^ (3 / 4 : ℝ) + 17 * FloatFmt.f64.eps at y2
      have h0 := Real.arccos_nonneg (FloatFmt.f64.rnd x)
      have h1 := Real.arccos_le_pi (FloatFmt.f64.rnd x)
      have h3 := Real.pi_lt_d2
      have := abs_le.1 y2
      norm_num at hcst h3
      rw [abs_le]; norm_num; constructor <;> linarith
  · obtain ⟨w1, w, dw, w2, w3, w4, w5⟩ := row_entries hd
    have hx : |(d.val : ℝ) - acosAt'| ≤ 1 / 10 ^ 30 := by
      have hpt := C72_points (ext := ext) (n := configDigits false) (C67_neg hone) hone 1024 197 (by norm_num) (by norm_num)
      have e : (-1 + (197 : ℕ) * (1 - -1) / (1024 : ℕ) : ℝ) = (acosAt' : ℝ) := by norm_num [acosAt']
      rw [e] at hpt
      have := KeepsNumber.sample (ext := ext) (q := acosAt') hk hpt (by norm_num [configDigits]) w1
      push_cast at this
      exact this
    have hlip := arcsin_lipschitz (x := acosAt') (c := d.val) (by norm_num [acosAt', abs_le]) (by
      have := abs_le.1 hx
      norm_num [acosAt'] at this
      rw [abs_le]; constructor <;> linarith)
    have h1 : |Real.arccos acosAt' - Real.arccos d.val| ≤ 2 / 10 ^ 30 := by
      rw [abs_sub_comm] at hx
      rw [Real.arccos, Real.arccos, sub_sub_sub_cancel_left]
      norm_num at hx hlip ⊢
      linarith
    obtain ⟨z, hz, hzd⟩ : ∃ z, FloatFmt.f64.Repr z ∧ |(dy.val : ℝ) - z| ≤ 45 / 100 / 2 ^ 53 := by
      have hw : EvalsTo ext (configDigits false) w (acosF : ℚ) (153 / 100 / 2 ^ 53) := by
        refine ⟨w, dw, w2, w3, ?_⟩
        rw [w4]
        push_cast
        have e1 := abs_le.1 h1
        have e2 := abs_le.1 hv1
        have e3 := abs_le.1 v3
        rw [show configDigits false = 40 from rfl] at e2
        norm_num [acosF] at e1 e2 e3
        rw [abs_le]
        norm_num [acosF]
        constructor <;> linarith
      exact NearsFloat.sample hk' hw (by norm_num) w5
    refine ⟨5029348855142896 / 2 ^ 51, 45 / 100 / 2 ^ 53, ?_, ?_, ?_⟩
    · show calls "acos" [.f (FloatFmt.f64.rnd d.val)] = _
      rw [acosAt'_rnd hx]
      exact v1
    · refine (FloatFmt.rnd_nearest (F := .f64) (dy.val : ℝ) hz).trans ?_
      rw [abs_sub_comm]
      exact hzd
    · have h3 : (647 / 100 - 1 / 1000) * (1 / 2 ^ 53) ≤ |5029348855142896 / 2 ^ 51 - Real.arccos d.val| := by
        rw [abs_sub_comm]
        refine le_trans ?_ (le_abs_self _)
        have := abs_le.1 h1
        rw [hε] at v2
        norm_num at v2 this ⊢
        linarith
      show ((accuracyLimit false 6 6 : ℚ) : ℝ) < (1 - 3 * FloatFmt.f64.eps) * |5029348855142896 / 2 ^ 51 - Real.arccos d.val| -
        (1 + 3 * FloatFmt.f64.eps) * (45 / 100 / 2 ^ 53) - FloatFmt.f64.eps / 100
      generalize |5029348855142896 / 2 ^ 51 - Real.arccos d.val| = D at h3 ⊢
      have hlim : ((accuracyLimit false 6 6 : ℚ) : ℝ) = 6 / 2 ^ 53 := by norm_num [accuracyLimit]
      rw [hε, hlim]
      norm_num at h3 ⊢
      linarith

end

/-! ## The hypotheses can be met -/

/-- The float next to the arc cosine, as a decimal. -/
def acosDec : Dec := ⟨5029348855142898 * 5 ^ 51, 51⟩

/-- Conversions that lose nothing, except next to the arc cosine in question, where they round to the float. -/
def acosExt : BdExt := { tableExt with toF64 := fun d => tableExt.toF64 (if |d.val - acosF| ≤ 153 / 100 / 2 ^ 53 then acosDec else d) }

theorem acosExt_conv (d : Dec) : ∃ b r, acosExt.toF64 d = some b ∧ acosExt.fromF64 b = some r ∧ r.val = (if |d.val - acosF| ≤ 153 / 100 / 2 ^ 53 then acosDec else d).val ∧ 0 < r.scale := by
  have hv : ∀ d : Dec, (⟨d.int * 10 ^ (d.scale.natAbs + 1), d.scale + (d.scale.natAbs + 1 : ℕ)⟩ : Dec).val = d.val := by
    intro d
    generalize d.scale.natAbs + 1 = k
    have e : -(d.scale + (k : ℤ)) = -d.scale + -(k : ℤ) := by ring
    unfold Dec.val
    simp only [e, zpow_add₀ (show (10 : ℚ) ≠ 0 by norm_num), zpow_neg, zpow_natCast]
    push_cast
    field_simp
  exact ⟨_, _, rfl, by simp only [acosExt, tableExt, Encodable.encodek]; rfl, hv _, by simp only; omega⟩

theorem acosDec_val : acosDec.val = acosF := by norm_num [acosDec, acosF, Dec.val, zpow_neg]

theorem acosExt_rounds : RoundsNear acosExt := by
  refine ⟨tableExt_rounds.f32, fun d _ => ?_⟩
  obtain ⟨b, r, h1, h2, h3, h4⟩ := acosExt_conv d
  refine ⟨b, r, h1, h2, ?_, ?_, h4⟩
  · rw [h3]
    split_ifs with h
    · rw [acosDec_val, abs_sub_comm]
      have : (2 : ℚ) ≤ |d.val| := by
        have := abs_le.1 h
        norm_num [acosF] at this
        exact le_trans (by linarith) (le_abs_self _)
      refine h.trans ?_
      norm_num
      linarith
    · rw [sub_self, abs_zero]; positivity
  · intro hd
    rw [h3, if_neg]
    · exact hd
    · intro h
      have := abs_le.1 h; have := abs_le.1 hd
      norm_num [acosF] at *
      linarith

theorem acosExt_keeps : KeepsNumber acosExt (-315 / 512) (1 / 10 ^ 30) (1 / 10 ^ 30) := by
  intro d hd
  obtain ⟨b, r, h1, h2, h3, -⟩ := acosExt_conv d
  refine ⟨b, r, h1, h2, ?_⟩
  rw [h3, if_neg]
  · exact hd
  · intro h
    have := abs_le.1 h; have := abs_le.1 hd
    norm_num [acosF] at *
    linarith

theorem acosExt_nears : NearsFloat acosExt acosF (153 / 100 / 2 ^ 53) (45 / 100 / 2 ^ 53) := by
  intro d hd
  obtain ⟨b, r, h1, h2, h3, -⟩ := acosExt_conv d
  refine ⟨b, r, h1, h2, (acosF : ℚ), ⟨5029348855142898, -51, by norm_num [acosF, zpow_neg], by decide, by decide⟩, ?_⟩
  rw [h3, if_pos hd, acosDec_val, sub_self, abs_zero]
  positivity

example : ∃ calls, ∀ s ∈ testSpecs, s.name = "test_acos" → ¬AccuracyTest acosExt false calls (bitsBy acosExt false) s := by
  obtain ⟨calls, h⟩ := C99_library_exists (ext := acosExt) ⟨longExt_ok.1, longExt_ok.2⟩ (by decide) acosExt_rounds false
  exact ⟨calls, C103_acos_fails h (by norm_num) acosExt_keeps acosExt_nears⟩

end Verif

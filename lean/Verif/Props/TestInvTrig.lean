import Verif.Props.TestFails

/-!
# C102 The generated 32-bit `asin` and `acos` pass their accuracy tests on `[-1, 1]`

Near the ends of the range the arc sine is steep, so the samples matter: the multiples of 1/512 are floats, and so are their squares.
-/

namespace Verif
open RExpr Dec

/-! ## Passing, sample by sample -/

/-- If at each row of the table the error of the function and the rounding error of the reference value together stay below the limit, then the test passes. -/
theorem passes_at {ext : BdExt} (hs : SqrtOk ext) (hf : 600 ≤ ext.fuel) (hr : RoundsNear ext) (b32 : Bool) (s : TestSpec) (hm : s ∈ testSpecs)
    (tmin tmax : Expr) (k32 k64 : ℚ) (N : ℕ) (ht : s.test = .maxAbs tmin tmax k32 k64 N) {V : ℝ → ℝ} {a b : ℝ}
    (hV : ∀ V' a' b', (s.name, some (V', a', b')) ∈ testMeaning → V' = V ∧ a' = a ∧ b' = b) {f : RV → RV}
    (hp : ∀ i < N, ∀ dx dy de : Dec, sampleRow ext (configDigits b32) (if b32 then 32 else 64) s.ref tmin tmax N i = .ok (exprOfDec dx, exprOfDec dy, exprOfDec de) →
      ∃ c μ, f (.f ((fmtOf b32).rnd dx.val)) = .f c ∧ (∀ y, |y - V dx.val| ≤ 3 / 10 ^ 6 * (|V dx.val| + 1) → |(fmtOf b32).rnd y - y| ≤ μ) ∧
        (1 + 3 * (fmtOf b32).eps) * (|c - V dx.val| + μ) + (fmtOf b32).eps / 100 ≤ ((accuracyLimit b32 k32 k64 : ℚ) : ℝ)) :
    ∃ rows, testRows ext b32 s.ref tmin tmax N = .ok rows ∧ TestPassesIE (fmtOf b32) (rows.map (rowIE (fmtOf b32))) (limitIE b32 k32 k64) f := by
  obtain ⟨rows, V', a', b', dx, dy, de, h1, hmem, hrows, g⟩ := test_rows_data hs hf hr b32 s hm tmin tmax k32 k64 N ht
  obtain ⟨rfl, rfl, rfl⟩ := hV _ _ _ hmem
  have hL := limit_le b32 s hm _ _ _ _ _ ht
  refine ⟨rows, h1, ?_⟩
  have hL1 : ((accuracyLimit b32 k32 k64 : ℚ) : ℝ) ≤ 1 := by rw [← Rat.cast_one (α := ℝ)]; exact Rat.cast_le.2 hL.2
  have hε0 : 0 < (fmtOf b32).eps := FloatFmt.eps_pos
  have hx11 : ∀ i < N, |((dx i).val : ℝ)| ≤ 2 ^ 100 := fun i hi => (g i hi).2.2.2.2.1.trans (by norm_num)
  have hrow : ∀ i < N, ∃ m, refErrorIE (fmtOf b32) (f (.f ((fmtOf b32).rnd ((dx i).val : ℝ)))) ((fmtOf b32).rne ((dy i).val : ℝ)) ((fmtOf b32).rne ((de i).val : ℝ)) = .f m ∧
      m ≤ ((accuracyLimit b32 k32 k64 : ℚ) : ℝ) := by
    intro i hi
    obtain ⟨-, q1, q2, q3, -, q5⟩ := g i hi
    obtain ⟨c, μ, hc, hμ, hle⟩ := hp i hi _ _ _ q5
    push_cast at q1
    have hμ0 : 0 ≤ μ := (abs_nonneg _).trans (hμ (V' (dx i).val) (by rw [sub_self, abs_zero]; positivity))
    have hD := abs_nonneg (c - V' (dx i).val)
    have hsm : |c| ≤ 2 ^ 90 := by
      have h6 : |c - V' (dx i).val| ≤ 1 := by
        nlinarith [mul_nonneg hε0.le hD, mul_nonneg hε0.le hμ0]
      have := abs_sub_abs_le_abs_sub c (V' (dx i).val)
      norm_num; linarith
    obtain ⟨hn, m, hm, hb⟩ := row_sharp (b32 := b32) hsm q1 q2 q3
    rw [hc]
    refine ⟨m, hm, hb.trans (le_trans ?_ hle)⟩
    have := hμ _ hn
    gcongr
  show TestPassesIE _ _ (.f _) _
  rw [C92_passes_iff _ _ _ (Rat.cast_nonneg.2 hL.1), hrows, List.map_map]
  · simp only [List.mem_map, List.mem_range, forall_exists_index, and_imp, forall_apply_eq_imp_iff₂, Function.comp, rowIE, emittedIE_dec]
    intro i hi
    rw [rne_small (hx11 i hi)]
    exact .inr (hrow i hi)
  · intro r hr'
    rw [hrows, List.map_map] at hr'
    obtain ⟨i, hi, rfl⟩ := List.mem_map.1 hr'
    have hi' := List.mem_range.1 hi
    simp only [Function.comp, rowIE, emittedIE_dec, rne_small (hx11 i hi')]
    obtain ⟨m, hm, -⟩ := hrow i hi'
    rw [hm]; constructor

/-- Rounding to 32 bits takes the decimals within `r` of the number `q` to decimals within `s` of it. -/
def KeepsNumber32 (ext : BdExt) (q r s : ℚ) : Prop :=
  ∀ d : Dec, |d.val - q| ≤ r → ∃ b d', ext.toF32 d = some b ∧ ext.fromF32 b = some d' ∧ |d'.val - q| ≤ s

/-- What is written for a value at such a number. -/
theorem KeepsNumber32.sample {ext : BdExt} {q r s : ℚ} (h : KeepsNumber32 ext q r s) {n : ℕ} {e : Expr} {δ : ℝ} (he : EvalsTo ext n e q δ) (hδ : δ ≤ r) {d : Dec}
    (hd : eval ext n (roundIeeeExpr e 32) = .ok (exprOfDec d)) : |(d.val : ℝ) - q| ≤ s := by
  obtain ⟨t, p, h1, h2, h3⟩ := he
  have h3' : |p.val - q| ≤ r := by
    rw [← Rat.cast_le (K := ℝ)]
    push_cast
    exact h3.trans hδ
  obtain ⟨b, w, a1, a2, a3⟩ := h p h3'
  obtain ⟨t2, d2, b1, b2, b3⟩ := evals_usize (ext := ext) (n := n) 32
  have hv' : d2.val = 32 := by
    have hv : (d2.val : ℝ) = ((32 : ℕ) : ℝ) := sub_eq_zero.1 (abs_eq_zero.1 (le_antisymm b3 (abs_nonneg _)))
    rw [← Rat.cast_natCast (α := ℝ)] at hv
    exact Rat.cast_injective hv
  have h4 : eval ext n (roundIeeeExpr e 32) = .ok (exprOfDec w) := by
    refine eval_method1 h1 h2 b1 b2 ?_
    show Bd.roundIeee ext p d2 n = _
    rw [(C34_accepts ext p d2 n).1 hv', a1]
    simp only [a2]
  rw [hd] at h4
  injection h4 with h4
  have h5 := exprToDec_exprOfDec d
  rw [h4, exprToDec_exprOfDec] at h5
  injection h5 with h5
  have h6 : d.val = w.val := by rw [← val_canon d, ← h5, val_canon]
  rw [h6]
  rw [← Rat.cast_le (K := ℝ)] at a3
  push_cast at a3
  exact a3

/-! ## The samples -/

/-- The samples of a test with 1024 rows on `[-1, 1]`. -/
def gridAt (i : ℕ) : ℚ := i / 512 - 1

/-- The decimals next to a sample are rounded to it.  Near zero only the size matters. -/
theorem grid_float {i : ℕ} (hi : i < 1024) {x : ℝ} (hx : |x - gridAt i| ≤ 2 / 10 ^ 19) :
    |FloatFmt.f32.rnd x| ≤ 1 ∧ |FloatFmt.f32.rnd x - x| ≤ 1 / 10 ^ 17 ∧
      (1 / 4 ≤ FloatFmt.f32.rnd x * FloatFmt.f32.rnd x → ∃ k : ℤ, |k| ≤ 512 ∧ FloatFmt.f32.rnd x = k / 512) := by
  have hq : ((gridAt i : ℚ) : ℝ) = ((i : ℤ) - 512 : ℤ) / 512 := by unfold gridAt; push_cast; ring
  obtain ⟨k, hk⟩ : ∃ k : ℤ, k = (i : ℤ) - 512 := ⟨_, rfl⟩
  rw [hq, ← hk] at hx
  have hk1 : |k| ≤ 512 := by rw [abs_le]; omega
  have hk2 : |(k : ℝ)| ≤ 512 := by exact_mod_cast hk1
  have key : ∀ (k : ℤ) (x : ℝ), 0 < k → k ≤ 512 → |x - k / 512| ≤ 2 / 10 ^ 19 → FloatFmt.f32.rnd x = k / 512 := by
    intro k x h0 h1 hx
    have h2 : (1 : ℝ) ≤ k := by exact_mod_cast h0
    have hx' := abs_le.1 hx
    norm_num at hx'
    refine FloatFmt.rnd_eq (F := .f32) (E := -10) ⟨k, -9, by norm_num; ring, by
      have : FloatFmt.f32.mant = 23 := rfl
      rw [this, abs_of_pos h0]; norm_num; omega, by decide⟩ (by norm_num; linarith) (by decide) ?_ (by norm_num; linarith)
    have e : ((-10 : ℤ) - (FloatFmt.f32.mant : ℤ)) = -33 := by decide
    rw [e]
    refine hx.trans_lt ?_
    norm_num
  rcases lt_trichotomy k 0 with h | h | h
  · have h1 := key (-k) (-x) (by omega) (by have := (abs_le.1 hk1).1; omega) (by
      rw [← abs_neg]; push_cast
      rwa [show -(-x - -(k : ℝ) / 512) = x - k / 512 by ring])
    rw [FloatFmt.rnd_neg] at h1
    have h2 : FloatFmt.f32.rnd x = k / 512 := by push_cast at h1; linarith
    rw [h2]
    refine ⟨by rw [abs_div]; norm_num; linarith, by rw [abs_sub_comm]; refine hx.trans (by norm_num), fun _ => ⟨k, hk1, rfl⟩⟩
  · have h0 : |x| ≤ (2 : ℝ) ^ (-60 : ℤ) := by
      rw [h] at hx
      norm_num at hx ⊢
      linarith
    have h1 : |FloatFmt.f32.rnd x| ≤ (2 : ℝ) ^ (-60 : ℤ) := FloatFmt.abs_rnd_le (FloatFmt.repr_zpow (by decide)) h0
    norm_num at h0 h1
    refine ⟨by linarith, ?_, fun h2 => ?_⟩
    · have := abs_le.1 h0; have := abs_le.1 h1
      norm_num
      rw [abs_le]; constructor <;> linarith
    · exfalso
      rw [← abs_mul_abs_self] at h2
      nlinarith [abs_nonneg (FloatFmt.f32.rnd x)]
  · have h2 := key k x h (abs_le.1 hk1).2 hx
    rw [h2]
    refine ⟨by rw [abs_div]; norm_num; linarith, by rw [abs_sub_comm]; refine hx.trans (by norm_num), fun _ => ⟨k, hk1, rfl⟩⟩

/-- Squares of multiples of 1/512 are floats, and so is what is missing to one. -/
theorem grid_square {k : ℤ} (hk : |k| ≤ 512) :
    FloatFmt.f32.rnd ((k / 512 : ℝ) * (k / 512)) = k / 512 * (k / 512) ∧ FloatFmt.f32.rnd (1 - (k / 512 : ℝ) * (k / 512)) = 1 - k / 512 * (k / 512) := by
  have h1 : k * k ≤ 512 * 512 := by rw [← abs_mul_abs_self]; nlinarith [abs_nonneg k]
  have h0 : 0 ≤ k * k := mul_self_nonneg k
  have hm : FloatFmt.f32.mant = 23 := rfl
  constructor
  · refine FloatFmt.rnd_of_repr ⟨k * k, -18, by push_cast; norm_num; ring, ?_, by decide⟩
    rw [hm, abs_of_nonneg h0]; norm_num; omega
  · refine FloatFmt.rnd_of_repr ⟨512 * 512 - k * k, -18, by push_cast; norm_num; ring, ?_, by decide⟩
    rw [hm, abs_of_nonneg (by omega)]; norm_num; omega

/-! ## How steep the arc sine is -/

theorem arcsin_holder_of {x y : ℝ} (hx : |x| ≤ 1) (hy : |y| ≤ 1) (h : y ≤ x) : Real.arcsin x - Real.arcsin y ≤ 4 * √(x - y) := by
  obtain ⟨hx1, hx2⟩ := abs_le.1 hx
  obtain ⟨hy1, hy2⟩ := abs_le.1 hy
  have a1 := Real.arcsin_le_pi_div_two x
  have b1 := Real.neg_pi_div_two_le_arcsin y
  have hab := Real.monotone_arcsin h
  have e := Real.sin_sub_sin (Real.arcsin x) (Real.arcsin y)
  rw [Real.sin_arcsin hx1 hx2, Real.sin_arcsin hy1 hy2] at e
  have b2 := Real.arcsin_le_pi_div_two y
  have a2 := Real.neg_pi_div_two_le_arcsin x
  generalize Real.arcsin x = α at *
  generalize Real.arcsin y = β at *
  have hpi := Real.pi_pos
  obtain ⟨δ, hδ⟩ : ∃ δ, δ = (α - β) / 2 := ⟨_, rfl⟩
  rw [← hδ] at e
  have d0 : 0 ≤ δ := by linarith
  have d1 : δ ≤ Real.pi / 2 := by linarith
  have hs : δ / 2 ≤ Real.sin δ := by
    refine le_trans ?_ (Real.mul_le_sin d0 d1)
    have h4 : 1 / 2 ≤ 2 / Real.pi := by rw [div_le_div_iff₀ (by norm_num) hpi]; linarith [Real.pi_le_four]
    nlinarith
  have hc : Real.sin δ ≤ Real.cos ((α + β) / 2) := by
    rw [← Real.cos_pi_div_two_sub, ← Real.cos_abs ((α + β) / 2)]
    refine Real.cos_le_cos_of_nonneg_of_le_pi (abs_nonneg _) (by linarith) ?_
    rw [abs_le]; constructor <;> linarith
  have h5 : (δ / 2) ^ 2 ≤ x - y := by
    rw [e]
    have h6 : δ / 2 * (δ / 2) ≤ Real.sin δ * Real.cos ((α + β) / 2) := mul_le_mul hs (hs.trans hc) (by linarith) (by linarith)
    nlinarith [mul_self_nonneg (δ / 2)]
  have := Real.le_sqrt_of_sq_le h5
  linarith

theorem arcsin_holder {x y : ℝ} (hx : |x| ≤ 1) : |Real.arcsin x - Real.arcsin y| ≤ 4 * √|x - y| := by
  have main : ∀ y, |y| ≤ 1 → |Real.arcsin x - Real.arcsin y| ≤ 4 * √|x - y| := by
    intro y hy
    rcases le_total y x with h | h
    · rw [abs_of_nonneg (sub_nonneg.2 (Real.monotone_arcsin h)), abs_of_nonneg (sub_nonneg.2 h)]
      exact arcsin_holder_of hx hy h
    · rw [abs_sub_comm, abs_sub_comm x, abs_of_nonneg (sub_nonneg.2 (Real.monotone_arcsin h)), abs_of_nonneg (sub_nonneg.2 h)]
      exact arcsin_holder_of hy hx h
  obtain ⟨hx1, hx2⟩ := abs_le.1 hx
  by_cases h1 : 1 < y
  · have := main 1 (by norm_num)
    rw [Real.arcsin_one] at this
    rw [Real.arcsin_of_one_le h1.le]
    refine this.trans (mul_le_mul_of_nonneg_left (Real.sqrt_le_sqrt ?_) (by norm_num))
    rw [abs_sub_comm, abs_sub_comm x, abs_of_nonneg (by linarith), abs_of_nonneg (by linarith)]; linarith
  by_cases h2 : y < -1
  · have := main (-1) (by norm_num)
    rw [Real.arcsin_neg_one] at this
    rw [Real.arcsin_of_le_neg_one h2.le]
    refine this.trans (mul_le_mul_of_nonneg_left (Real.sqrt_le_sqrt ?_) (by norm_num))
    rw [abs_of_nonneg (by linarith), abs_of_nonneg (by linarith)]; linarith
  · exact main y (abs_le.2 ⟨not_lt.1 h2, not_lt.1 h1⟩)

/-- The value at the float in place of the sample. -/
theorem arcsin_sample {a x : ℝ} (ha : |a| ≤ 1) (h : |a - x| ≤ 1 / 10 ^ 17) : |Real.arcsin a - Real.arcsin x| ≤ FloatFmt.f32.eps / 4 := by
  refine (arcsin_holder (y := x) ha).trans ?_
  have h1 : √|a - x| ≤ 35 / 10 ^ 10 := Real.sqrt_le_iff.2 ⟨by norm_num, h.trans (by norm_num)⟩
  rw [show FloatFmt.f32.eps = 1 / 2 ^ 24 from eps_f32]
  norm_num at h1 ⊢
  linarith

/-! ## The functions at the samples -/

theorem asin_cells_wide : ∀ i ∈ List.range 46, (polyEnc ulp32 .odd 15 asinLits (cell (-23 / 32) (1 / 32) i)).ok = true ∧
    (polyEnc ulp32 .odd 15 asinLits (cell (-23 / 32) (1 / 32) i)).err ≤ 18 / 10 * ulp32 := by decide +kernel

/-- The polynomial of `acos` at 32 bits is that of `asin`. -/
theorem acos_code_enc {ext : BdExt} {fx : FloatExt} {v : ℝ} (hs : SqrtOk ext) (hf : 20 ≤ ext.fuel) (h : RoundedLits fx true v) (hv : v ≤ 1 / 10 ^ 12) :
    ∃ e, polynomialCode ext fx true .acos ⟨-70710678118654752440, 20⟩ ⟨70710678118654752440, 20⟩ = .ok e ∧
      EncCode .f32 "x" e.toR Real.arcsin asinLim (143 / 10 ^ 10) (polyEnc ulp32 .odd 15 asinLits) := by
  obtain ⟨e, h1, h2⟩ := (asin_fits ext hs (by omega) .acos rfl rfl rfl rfl 15 20 rfl (11 / 10 ^ 21) 560 561 (143 / 10 ^ 10) (789 / 1000) asin_ok_16).encCode asin_ok_16 asinBox_ok rfl
    asinBox_small (by norm_num) (by norm_num) h eps_ulp32 (v' := 1 / 10 ^ 12) (by push_cast; exact hv) rfl rfl
  refine ⟨e, h1, ?_⟩
  have e1 : (((asinCert 15 20 (11 / 10 ^ 21) 560 561 (143 / 10 ^ 10) (789 / 1000)).hi : ℚ) : ℝ) = asinLim := by simp [asinCert, asinLim]
  have e2 : (((asinCert 15 20 (11 / 10 ^ 21) 560 561 (143 / 10 ^ 10) (789 / 1000)).ε : ℚ) : ℝ) = 143 / 10 ^ 10 := by simp [asinCert]
  rw [e1, e2] at h2
  exact h2

section
variable {p : RExpr} (hp : EncCode .f32 "x" p Real.arcsin asinLim (143 / 10 ^ 10) (polyEnc ulp32 .odd 15 asinLits))
include hp

/-- The polynomial at any float in its range. -/
theorem asin_poly_wide {a : ℝ} (h1 : |a| ≤ asinLim) : ∃ y, (∀ calls env, env ["x"] = .f a → p.denote (ieeeInterp .f32 calls) env = .f y) ∧
    |y - Real.arcsin a| ≤ 21 / 10 * FloatFmt.f32.eps ∧ |y| ≤ 9 / 10 ∧ FloatFmt.f32.Repr y := by
  have hlim : asinLim ≤ 23 / 32 := by unfold asinLim; norm_num
  obtain ⟨i, hi, hX⟩ := grid_cover (a := -23 / 32) (h := 1 / 32) (n := 46) (by norm_num) (by norm_num) (x := a) (by push_cast; linarith [abs_le.1 h1]) (by push_cast; linarith [abs_le.1 h1])
  obtain ⟨k1, k2⟩ := asin_cells_wide i hi
  obtain ⟨y, q, y1, y2, y3, y4⟩ := hp _ a a hX h1 k1
  have hε : FloatFmt.f32.eps = 1 / 2 ^ 24 := eps_f32
  have h3 : |y - q| ≤ 18 / 10 * FloatFmt.f32.eps := by
    refine y2.2.2.trans ((Rat.cast_le.2 k2).trans (le_of_eq ?_))
    rw [show FloatFmt.f32.eps = (ulp32 : ℝ) from eps_ulp32]
    push_cast; rfl
  have h4 : |y - Real.arcsin a| ≤ 21 / 10 * FloatFmt.f32.eps := by
    have := abs_add_le (y - q) (q - Real.arcsin a)
    rw [sub_add_sub_cancel] at this
    rw [hε] at *
    norm_num at *
    linarith
  refine ⟨y, y1, h4, ?_, y4⟩
  have h5 : |Real.arcsin a| ≤ 8 / 10 := by
    have h2 : |a| ≤ √2 / 2 := by
      refine h1.trans ?_
      have := Real.le_sqrt_of_sq_le (show (2 * asinLim) ^ 2 ≤ 2 by unfold asinLim; norm_num)
      linarith
    have h3 : Real.arcsin (√2 / 2) = Real.pi / 4 := by
      rw [← Real.sin_pi_div_four, Real.arcsin_sin] <;> linarith [Real.pi_pos]
    have h4 := Real.monotone_arcsin (abs_le.1 h2).2
    have h5 := Real.monotone_arcsin (abs_le.1 h2).1
    rw [Real.arcsin_neg] at h5
    have := Real.pi_lt_d2
    rw [abs_le]; constructor <;> linarith
  have := abs_sub_abs_le_abs_sub y (Real.arcsin a)
  rw [hε] at h4
  norm_num at h4
  linarith

/-- What `asin` and `acos` compute before the last step, at a float whose square is a float when it matters. -/
theorem asin_parts_exact (calls : String → List RV → RV) {a : ℝ} (ha : FloatFmt.f32.Repr a) (h1 : |a| ≤ 1)
    (hex : 1 / 4 ≤ a * a → FloatFmt.f32.rnd (a * a) = a * a ∧ FloatFmt.f32.rnd (1 - a * a) = 1 - a * a) :
    let F := FloatFmt.f32
    F.rne (70710678118654752440 / 10 ^ 20) = .f (F.rnd asinLim) ∧ F.rne (F.rnd asinLim * F.rnd asinLim) = .f (F.rnd (F.rnd asinLim * F.rnd asinLim)) ∧
    F.rne (a * a) = .f (F.rnd (a * a)) ∧
    if F.rnd (a * a) < F.rnd (F.rnd asinLim * F.rnd asinLim) then
      ∃ y, (∀ env, env ["x"] = .f a → p.denote (ieeeInterp F calls) env = .f y) ∧ |y - Real.arcsin a| ≤ 21 / 10 * F.eps ∧ |y| ≤ 9 / 10 ∧ F.Repr y
    else ∃ x y, methIE F "sqrt" (F.rne (1 - F.rnd (a * a))) [] = .f x ∧
      (∀ env, env ["x"] = .f x → p.denote (ieeeInterp F calls) env = .f y) ∧ |y - Real.arcsin √(1 - a * a)| ≤ 31 / 10 * F.eps ∧ |y| ≤ 9 / 10 ∧ F.Repr y := by
  intro F
  have hF : F.Wide := FloatFmt.wide_fmtOf true
  have hε : F.eps = 1 / 2 ^ 24 := eps_f32
  have hB := (FloatFmt.bias_pow_ge hF).1
  norm_num at hB
  obtain ⟨l1, l2, l3, l4, l5⟩ := asin_lim true
  change 7 / 10 ≤ F.rnd asinLim at l1
  change F.rnd asinLim ≤ 71 / 100 at l2
  have haa0 : 0 ≤ a * a := mul_self_nonneg a
  have haa1 : a * a ≤ 1 := by rw [← abs_mul_abs_self]; nlinarith [abs_nonneg a]
  have hlim : asinLim ≤ 71 / 100 ∧ 0 ≤ asinLim := by unfold asinLim; constructor <;> norm_num
  refine ⟨?_, FloatFmt.rne_f hF.ok (by rw [abs_of_nonneg (by positivity)]; nlinarith), FloatFmt.rne_f hF.ok (by rw [abs_of_nonneg haa0]; linarith), ?_⟩
  · exact FloatFmt.rne_f hF.ok (x := asinLim) (by rw [abs_of_nonneg hlim.2]; linarith [hlim.1])
  · split_ifs with hin
    · obtain ⟨y, y1, y2⟩ := asin_poly_wide hp (l4 a ha hin)
      exact ⟨y, y1 calls, y2⟩
    · have hq := not_lt.1 hin
      have h0 : 1 / 4 ≤ a * a := by
        by_contra hc
        rw [not_le] at hc
        have h3 : F.rnd (a * a) ≤ 1 / 4 := FloatFmt.rnd_le (by have := FloatFmt.repr_eighths hF 2 (by norm_num); norm_num at this ⊢; exact this) hc.le
        change 49 / 100 ≤ F.rnd (F.rnd asinLim * F.rnd asinLim) at l3
        linarith
      obtain ⟨x1, x2⟩ := hex h0
      have hx1 : F.rnd √(F.rnd (1 - a * a)) ≤ asinLim := l5 _ (by rw [← x1]; exact hq) haa1
      change F.rnd (a * a) = _ at x1
      change F.rnd (1 - a * a) = _ at x2
      rw [x2] at hx1
      have hs0 := Real.sqrt_nonneg (1 - a * a)
      have hs1 : √(1 - a * a) ≤ 1 := Real.sqrt_le_one.2 (by linarith)
      have hr : |F.rnd √(1 - a * a) - √(1 - a * a)| ≤ F.eps / 2 := by
        have := FloatFmt.rnd_below (F := F) (x := √(1 - a * a)) (b := 0) (by decide) (by rw [abs_of_nonneg hs0]; simpa using hs1)
        simpa using this
      have hn : 0 ≤ F.rnd √(1 - a * a) := FloatFmt.le_rnd FloatFmt.repr_zero hs0
      obtain ⟨y, y1, y2, y3, y4⟩ := asin_poly_wide hp (a := F.rnd √(1 - a * a)) (by rwa [abs_of_nonneg hn])
      refine ⟨F.rnd √(1 - a * a), y, ?_, y1 calls, ?_, y3, y4⟩
      · rw [x1, FloatFmt.rne_f hF.ok (by rw [abs_of_nonneg (by linarith)]; linarith), x2, methIE_sqrt F (by linarith)]
        exact FloatFmt.rne_f hF.ok (by rw [abs_of_nonneg hs0]; linarith)
      · rw [hε] at hr
        norm_num at hr
        have hr' := abs_le.1 hr
        have hL := arcsin_lipschitz (x := √(1 - a * a)) (c := F.rnd √(1 - a * a)) (by rw [abs_of_nonneg hs0]; linarith [hlim.1]) (by rw [abs_of_nonneg hn]; linarith [hlim.1])
        have h3 := abs_add_le (y - Real.arcsin (F.rnd √(1 - a * a))) (Real.arcsin (F.rnd √(1 - a * a)) - Real.arcsin √(1 - a * a))
        rw [sub_add_sub_cancel] at h3
        rw [abs_sub_comm (√(1 - a * a))] at hL
        change |y - _| ≤ 21 / 10 * F.eps at y2
        rw [hε] at *
        norm_num at *
        linarith

end

/-- The last steps: a change of sign loses nothing, and a difference below four loses two units. -/
theorem last_steps {y : ℝ} (hr : FloatFmt.f32.Repr y) (hy : |y| ≤ 9 / 10) :
    FloatFmt.f32.rne (y * 1) = .f y ∧ FloatFmt.f32.rne (y * -1) = .f (-y) ∧
      ∀ k z : ℝ, |k| ≤ 32 / 10 → |z| = |y| → |k - z| ≤ 4 → FloatFmt.f32.rne (k - z) = .f (FloatFmt.f32.rnd (k - z)) ∧ |FloatFmt.f32.rnd (k - z) - (k - z)| ≤ 2 * FloatFmt.f32.eps := by
  have hF : FloatFmt.f32.Wide := FloatFmt.wide_fmtOf true
  have hB := (FloatFmt.bias_pow_ge hF).1
  norm_num at hB
  refine ⟨?_, ?_, fun k z hk hz h4 => ⟨FloatFmt.rne_f hF.ok (by linarith), ?_⟩⟩
  · rw [mul_one, FloatFmt.rne_f hF.ok (by linarith), FloatFmt.rnd_of_repr hr]
  · rw [mul_neg, mul_one, FloatFmt.rne_f hF.ok (by rw [abs_neg]; linarith), FloatFmt.rnd_of_repr hr.neg]
  · have := FloatFmt.rnd_below (F := .f32) (x := k - z) (b := 2) (by decide) (by norm_num; exact h4)
    norm_num at this
    linarith

section
variable {ext : BdExt} {calls : String → List RV → RV} {g : Name → RV} {p : RExpr} (hp : EncCode .f32 "x" p Real.arcsin asinLim (143 / 10 ^ 10) (polyEnc ulp32 .odd 15 asinLits))
  (hd : DeclaredIE ext true calls g) (hs : SqrtOk ext) (hf : 20 ≤ ext.fuel) {a : ℝ} (ha : FloatFmt.f32.Repr a) (h1 : |a| ≤ 1)
  (hex : 1 / 4 ≤ a * a → FloatFmt.f32.rnd (a * a) = a * a ∧ FloatFmt.f32.rnd (1 - a * a) = 1 - a * a)
include hp hd hs hf ha h1 hex

/-- The generated `asin` at such floats. -/
theorem asin_exact : ∃ y, (Gen.asin p).apply (ieeeInterp .f32 calls) g [.f a] = .f y ∧ |y - Real.arcsin a| ≤ 7 * FloatFmt.f32.eps := by
  obtain ⟨c, hc, hc1, hc2⟩ := hd.half_pi hs hf
  have hF : FloatFmt.f32.Wide := FloatFmt.wide_fmtOf true
  have hε := FloatFmt.eps_pos (F := .f32)
  have hce : constErr true ≤ FloatFmt.f32.eps / 1000 := constErr_eps true
  change |c - Real.pi / 2| ≤ constErr true + 16 / 10 * FloatFmt.f32.eps at hc1
  obtain ⟨r1, r2, r3, hP⟩ := asin_parts_exact hp calls ha h1 hex
  have hlit : ∀ env, (num "0.70710678118654752440").denote (ieeeInterp .f32 calls) env = .f (FloatFmt.f32.rnd asinLim) := fun env => by
    rw [denoteIE_num (d := ⟨70710678118654752440, 20⟩) _ _ _ rfl, asin_val.2, r1]
  have hedge := arcsin_edge a
  split_ifs at hP with hin
  · obtain ⟨y, hy, he, -, -⟩ := hP
    refine ⟨y, ?_, by linarith⟩
    simp only [Gen.asin, Gen.insideLim, Gen.edgeArg, ofFty_apply, List.map, bindParams]
    simp [hlit, r2, r3, hin]
    exact hy _ (by simp)
  · obtain ⟨x, y, hx, hPx, he, hb, hr⟩ := hP
    obtain ⟨m1, m2, m3⟩ := last_steps hr hb
    have hc2' := abs_le.1 hc2
    have hb' := abs_le.1 hb
    by_cases hneg : a < 0
    · obtain ⟨m4, m5⟩ := m3 (-c) (-y) (by rw [abs_neg]; linarith) (abs_neg y) (by rw [abs_le]; constructor <;> linarith)
      refine ⟨FloatFmt.f32.rnd (-c - -y), ?_, ?_⟩
      · simp only [Gen.asin, Gen.insideLim, Gen.edgeArg, ofFty_apply, List.map, bindParams]
        simp [hlit, r2, r3, hin, numIE_0 hF, numIE_1 hF, hneg, hc, hx]
        rw [hPx _ (by simp)]
        simp only [binIE_mul, m2, binIE_sub, m4]
        simp
      · simp only [hneg, if_true] at hedge
        rw [hedge] at he
        have := abs_le.1 m5; have := abs_le.1 he; have := abs_le.1 hc1
        rw [abs_le]; constructor <;> linarith
    · obtain ⟨m4, m5⟩ := m3 c y (by linarith) rfl (by rw [abs_le]; constructor <;> linarith)
      refine ⟨FloatFmt.f32.rnd (c - y), ?_, ?_⟩
      · simp only [Gen.asin, Gen.insideLim, Gen.edgeArg, ofFty_apply, List.map, bindParams]
        simp [hlit, r2, r3, hin, numIE_0 hF, numIE_1 hF, hneg, hc, hx]
        rw [hPx _ (by simp)]
        simp only [binIE_mul, m1, binIE_sub, m4]
      · simp only [hneg, if_false] at hedge
        rw [hedge] at he
        have := abs_le.1 m5; have := abs_le.1 he; have := abs_le.1 hc1
        rw [abs_le]; constructor <;> linarith

/-- The generated `acos` at such floats. -/
theorem acos_exact : ∃ y, (Gen.acos p).apply (ieeeInterp .f32 calls) g [.f a] = .f y ∧ |y - Real.arccos a| ≤ 85 / 10 * FloatFmt.f32.eps := by
  obtain ⟨c, hc, hc1, hc2⟩ := hd.half_pi hs hf
  obtain ⟨k, hk, hk1, hk2⟩ := hd.pi hs hf
  have hF : FloatFmt.f32.Wide := FloatFmt.wide_fmtOf true
  have hε := FloatFmt.eps_pos (F := .f32)
  have hε1 : FloatFmt.f32.eps = 1 / 2 ^ 24 := eps_f32
  have hce : constErr true ≤ FloatFmt.f32.eps / 1000 := constErr_eps true
  change |c - Real.pi / 2| ≤ constErr true + 16 / 10 * FloatFmt.f32.eps at hc1
  change |k - Real.pi| ≤ constErr true + 32 / 10 * FloatFmt.f32.eps at hk1
  obtain ⟨r1, r2, r3, hP⟩ := asin_parts_exact hp calls ha h1 hex
  have hlit : ∀ env, (num "0.70710678118654752440").denote (ieeeInterp .f32 calls) env = .f (FloatFmt.f32.rnd asinLim) := fun env => by
    rw [denoteIE_num (d := ⟨70710678118654752440, 20⟩) _ _ _ rfl, asin_val.2, r1]
  have hedge := arcsin_edge a
  split_ifs at hP with hin
  · obtain ⟨y, hy, he, hb, hr⟩ := hP
    obtain ⟨-, -, m3⟩ := last_steps hr hb
    have hc2' := abs_le.1 hc2
    have hb' := abs_le.1 hb
    obtain ⟨m4, m5⟩ := m3 c y (by linarith) rfl (by rw [abs_le]; constructor <;> linarith)
    refine ⟨FloatFmt.f32.rnd (c - y), ?_, ?_⟩
    · simp only [Gen.acos, Gen.insideLim, Gen.edgeArg, ofFty_apply, List.map, bindParams]
      simp [hlit, r2, r3, hin]
      rw [hy _ (by simp)]
      simp [hc, m4]
    · rw [Real.arccos]
      have := abs_le.1 m5; have := abs_le.1 he; have := abs_le.1 hc1
      rw [abs_le]; constructor <;> linarith
  · obtain ⟨x, y, hx, hPx, he, hb, hr⟩ := hP
    obtain ⟨m1, m2, m3⟩ := last_steps hr hb
    have hb' := abs_le.1 hb
    have hy0 : -(1 / 10) ≤ y := by
      have := Real.arcsin_nonneg.2 (Real.sqrt_nonneg (1 - a * a))
      have := abs_le.1 he
      rw [hε1] at this
      norm_num at this
      linarith
    by_cases hneg : a < 0
    · have hk2' := abs_le.1 hk2
      have hk0 : 0 ≤ k := by
        have := abs_le.1 hk1; have := Real.pi_gt_three
        rw [hε1] at *
        norm_num at *
        linarith
      obtain ⟨m4, m5⟩ := m3 k y hk2 rfl (by rw [abs_le]; constructor <;> linarith)
      refine ⟨FloatFmt.f32.rnd (k - y), ?_, ?_⟩
      · simp only [Gen.acos, Gen.insideLim, Gen.edgeArg, ofFty_apply, List.map, bindParams]
        simp [hlit, r2, r3, hin, numIE_0 hF, numIE_1 hF, hneg, hk, hx]
        rw [hPx _ (by simp)]
        simp only [binIE_mul, m1, binIE_sub, m4]
      · simp only [hneg, if_true] at hedge
        rw [hedge] at he
        rw [Real.arccos]
        have := abs_le.1 m5; have := abs_le.1 he; have := abs_le.1 hk1
        rw [abs_le]; constructor <;> linarith
    · obtain ⟨m4, m5⟩ := m3 0 (-y) (by norm_num) (abs_neg y) (by rw [abs_le]; constructor <;> linarith)
      refine ⟨FloatFmt.f32.rnd (0 - -y), ?_, ?_⟩
      · simp only [Gen.acos, Gen.insideLim, Gen.edgeArg, ofFty_apply, List.map, bindParams]
        simp [hlit, r2, r3, hin, numIE_0 hF, numIE_1 hF, hneg, hx]
        rw [hPx _ (by simp)]
        simp only [binIE_mul, m2, binIE_sub, m4]
        simp
      · simp only [hneg, if_false] at hedge
        rw [hedge] at he
        rw [Real.arccos]
        have := abs_le.1 m5; have := abs_le.1 he
        rw [abs_le]; constructor <;> linarith

end

/-! ## The tests -/

/-- Rounding to 32 bits keeps the samples of the tests on `[-1, 1]`. -/
def KeepsGrid (ext : BdExt) : Prop := ∀ i < 1024, KeepsNumber32 ext (gridAt i) (1 / 10 ^ 19) (2 / 10 ^ 19)

/-- A sample as the program reads it. -/
theorem KeepsGrid.sample {ext : BdExt} (h : KeepsGrid ext) {tmin tmax : Expr} (hmin : EvalsTo ext 20 tmin (-1) 0) (hmax : EvalsTo ext 20 tmax 1 0) {i : ℕ} (hi : i < 1024) {ref : Expr}
    {dx dy de : Dec} (hd : sampleRow ext 20 32 ref tmin tmax 1024 i = .ok (exprOfDec dx, exprOfDec dy, exprOfDec de)) :
    |FloatFmt.f32.rnd dx.val| ≤ 1 ∧ |FloatFmt.f32.rnd dx.val - dx.val| ≤ 1 / 10 ^ 17 ∧ (1 / 4 ≤ FloatFmt.f32.rnd dx.val * FloatFmt.f32.rnd dx.val →
      FloatFmt.f32.rnd (FloatFmt.f32.rnd dx.val * FloatFmt.f32.rnd dx.val) = FloatFmt.f32.rnd dx.val * FloatFmt.f32.rnd dx.val ∧
        FloatFmt.f32.rnd (1 - FloatFmt.f32.rnd dx.val * FloatFmt.f32.rnd dx.val) = 1 - FloatFmt.f32.rnd dx.val * FloatFmt.f32.rnd dx.val) := by
  have hpt := C72_points (ext := ext) (n := 20) hmin hmax 1024 i (by norm_num) hi.le
  have e : (-1 + (i : ℝ) * (1 - -1) / (1024 : ℕ) : ℝ) = ((gridAt i : ℚ) : ℝ) := by unfold gridAt; push_cast; ring
  rw [e] at hpt
  have hx := KeepsNumber32.sample (h i hi) hpt (by norm_num) (row_entries hd).1
  push_cast at hx
  obtain ⟨a1, a2, a3⟩ := grid_float hi hx
  refine ⟨a1, a2, fun h4 => ?_⟩
  obtain ⟨k, k1, k2⟩ := a3 h4
  rw [k2]
  exact grid_square k1

section
variable {ext : BdExt} {fx : FloatExt} {P : Gen.Parts} {calls : String → List RV → RV} {g : Name → RV} {v : ℝ}

/-- **C102** The accuracy test of `asin` on `[-1, 1]` passes. -/
theorem C102_asin2 (h : TestLibrary ext fx true P calls g v) (hk : KeepsGrid ext) : ∀ s ∈ testSpecs, s.name = "test_asin2" → AccuracyTest ext true calls g s := by
  intro s hm hn
  obtain rfl : s = TestSpec.maxAbs "asin" "test_asin2" (TestSpec.meth "asin") (TestSpec.app "asin" [.path ["x"]]) (TestSpec.neg (TestSpec.fl "1.0")) (TestSpec.fl "1.0") 6 6 1024 := by
    revert hn; revert s; simp [testSpecs, TestSpec.maxAbs]
  have hf20 : 20 ≤ ext.fuel := by have := h.fuel; omega
  obtain ⟨e, h1, h2⟩ := asin_code_enc h.sqrt hf20 h.lits h.close
  have hP := h.approx .asin (by simp [approxSpecs]) _ _ e rfl h1
  have hfn : LinkedIE .f32 calls g (Gen.asin e.toR) := h.fn "asin" (by decide +kernel) (by rw [← hP]; rfl)
  refine passes_at h.sqrt h.fuel h.rounds true _ hm _ _ _ _ _ rfl (V := Real.arcsin) (a := -1) (b := 1) (fun V' a' b' hV => by simpa [testMeaning, TestSpec.maxAbs] using hV)
    (f := TestSpec.value _ .f32 calls g) fun i hi dx dy de hd => ?_
  obtain ⟨a1, a2, a3⟩ := hk.sample (C67_neg evals_1) evals_1 hi hd
  obtain ⟨y, y1, y2⟩ := asin_exact h2 h.consts h.sqrt hf20 (FloatFmt.rnd_repr _) a1 a3
  have hε : FloatFmt.f32.eps = 1 / 2 ^ 24 := eps_f32
  refine ⟨y, FloatFmt.f32.eps, ?_, fun z hz => ?_, ?_⟩
  · show calls "asin" [.f (FloatFmt.f32.rnd dx.val)] = _
    rw [show calls "asin" [.f (FloatFmt.f32.rnd dx.val)] = _ from hfn [.f _]]
    exact y1
  · have h3 := Real.pi_lt_d2
    have h4 : |Real.arcsin dx.val| ≤ 16 / 10 := by
      have := Real.arcsin_le_pi_div_two dx.val; have := Real.neg_pi_div_two_le_arcsin dx.val
      norm_num at h3
      rw [abs_le]; constructor <;> linarith
    have h5 := abs_sub_abs_le_abs_sub z (Real.arcsin dx.val)
    have := FloatFmt.rnd_below (F := .f32) (x := z) (b := 1) (by decide) (by norm_num at hz ⊢; linarith)
    norm_num at this
    exact this
  · have h3 := arcsin_sample a1 a2
    have h4 := abs_add_le (y - Real.arcsin (FloatFmt.f32.rnd dx.val)) (Real.arcsin (FloatFmt.f32.rnd dx.val) - Real.arcsin dx.val)
    rw [sub_add_sub_cancel] at h4
    have hlim : ((accuracyLimit true 6 6 : ℚ) : ℝ) = 12 * FloatFmt.f32.eps := by rw [hε]; norm_num [accuracyLimit]
    have h6 : |y - Real.arcsin dx.val| ≤ 725 / 100 * FloatFmt.f32.eps := by linarith
    show (1 + 3 * FloatFmt.f32.eps) * (|y - Real.arcsin dx.val| + FloatFmt.f32.eps) + FloatFmt.f32.eps / 100 ≤ _
    rw [hlim]
    generalize |y - Real.arcsin dx.val| = D at h6 ⊢
    rw [hε] at h6 ⊢
    norm_num at h6 ⊢
    linarith

/-- **C102** The accuracy test of `acos` on `[-1, 1]` passes. -/
theorem C102_acos (h : TestLibrary ext fx true P calls g v) (hk : KeepsGrid ext) : ∀ s ∈ testSpecs, s.name = "test_acos" → AccuracyTest ext true calls g s := by
  intro s hm hn
  obtain rfl : s = TestSpec.maxAbs "acos" "test_acos" (TestSpec.meth "acos") (TestSpec.app "acos" [.path ["x"]]) (TestSpec.neg (litInt "1")) (litInt "1") 6 6 1024 := by
    revert hn; revert s; simp [testSpecs, TestSpec.maxAbs]
  have hf20 : 20 ≤ ext.fuel := by have := h.fuel; omega
  obtain ⟨e, h1, h2⟩ := acos_code_enc h.sqrt hf20 h.lits h.close
  have hP := h.approx .acos (by simp [approxSpecs]) _ _ e rfl h1
  have hfn : LinkedIE .f32 calls g (Gen.acos e.toR) := h.fn "acos" (by decide +kernel) (by rw [← hP]; rfl)
  have hone : EvalsTo ext 20 (litInt "1") 1 0 := by simpa using evals_int (ext := ext) (n := 20) "1" 1 rfl
  refine passes_at h.sqrt h.fuel h.rounds true _ hm _ _ _ _ _ rfl (V := Real.arccos) (a := -1) (b := 1) (fun V' a' b' hV => by simpa [testMeaning, TestSpec.maxAbs] using hV)
    (f := TestSpec.value _ .f32 calls g) fun i hi dx dy de hd => ?_
  obtain ⟨a1, a2, a3⟩ := hk.sample (C67_neg hone) hone hi hd
  obtain ⟨y, y1, y2⟩ := acos_exact h2 h.consts h.sqrt hf20 (FloatFmt.rnd_repr _) a1 a3
  have hε : FloatFmt.f32.eps = 1 / 2 ^ 24 := eps_f32
  refine ⟨y, 2 * FloatFmt.f32.eps, ?_, fun z hz => ?_, ?_⟩
  · show calls "acos" [.f (FloatFmt.f32.rnd dx.val)] = _
    rw [show calls "acos" [.f (FloatFmt.f32.rnd dx.val)] = _ from hfn [.f _]]
    exact y1
  · have h3 := Real.pi_lt_d2
    have h4 : |Real.arccos dx.val| ≤ 32 / 10 := by
      rw [abs_of_nonneg (Real.arccos_nonneg _)]
      have := Real.arccos_le_pi dx.val
      norm_num at h3
      linarith
    have h5 := abs_sub_abs_le_abs_sub z (Real.arccos dx.val)
    have := FloatFmt.rnd_below (F := .f32) (x := z) (b := 2) (by decide) (by norm_num at hz ⊢; linarith)
    norm_num at this
    change |FloatFmt.f32.rnd z - z| ≤ _
    linarith
  · have h3 := arcsin_sample a1 a2
    have h4 := abs_add_le (y - Real.arccos (FloatFmt.f32.rnd dx.val)) (Real.arccos (FloatFmt.f32.rnd dx.val) - Real.arccos dx.val)
    rw [sub_add_sub_cancel] at h4
    have h5 : |Real.arccos (FloatFmt.f32.rnd dx.val) - Real.arccos dx.val| = |Real.arcsin (FloatFmt.f32.rnd dx.val) - Real.arcsin dx.val| := by
      rw [Real.arccos, Real.arccos, sub_sub_sub_cancel_left, abs_sub_comm]
    have hlim : ((accuracyLimit true 6 6 : ℚ) : ℝ) = 12 * FloatFmt.f32.eps := by rw [hε]; norm_num [accuracyLimit]
    have h6 : |y - Real.arccos dx.val| ≤ 875 / 100 * FloatFmt.f32.eps := by linarith
    show (1 + 3 * FloatFmt.f32.eps) * (|y - Real.arccos dx.val| + 2 * FloatFmt.f32.eps) + FloatFmt.f32.eps / 100 ≤ _
    rw [hlim]
    generalize |y - Real.arccos dx.val| = D at h6 ⊢
    rw [hε] at h6 ⊢
    norm_num at h6 ⊢
    linarith

end

/-- Conversions that lose nothing keep every number. -/
theorem tableExt_grid : KeepsGrid tableExt := by
  intro i _ d hd
  have hv : (⟨d.int * 10 ^ (d.scale.natAbs + 1), d.scale + (d.scale.natAbs + 1 : ℕ)⟩ : Dec).val = d.val := by
    generalize d.scale.natAbs + 1 = k
    have e : -(d.scale + (k : ℤ)) = -d.scale + -(k : ℤ) := by ring
    unfold Dec.val
    simp only [e, zpow_add₀ (show (10 : ℚ) ≠ 0 by norm_num), zpow_neg, zpow_natCast]
    push_cast
    field_simp
  exact ⟨_, _, rfl, by simp only [tableExt, Encodable.encodek]; rfl, by rw [hv]; exact hd.trans (by norm_num)⟩

/-- The hypotheses can be met. -/
example : ∃ calls, ∀ s ∈ testSpecs, s.name = "test_asin2" ∨ s.name = "test_acos" → AccuracyTest tableExt true calls (bitsBy tableExt true) s := by
  obtain ⟨calls, h⟩ := C99_library_exists (ext := tableExt) ⟨longExt_ok.1, longExt_ok.2⟩ (by decide) tableExt_rounds true
  exact ⟨calls, fun s hm hn => hn.elim (C102_asin2 h tableExt_grid s hm) (C102_acos h tableExt_grid s hm)⟩

end Verif

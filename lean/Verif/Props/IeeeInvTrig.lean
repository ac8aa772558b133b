import Verif.Props.IeeeExp

/-!
# C83 for `atan`, `asin`, `acos` and `atan2`
-/

namespace Verif
open RExpr Dec

section
variable {ext : BdExt} {fx : FloatExt} {b32 : Bool} {u w : ℝ}

/-! ## `atan` -/

noncomputable def atanOps (b32 : Bool) : ℝ := if b32 then 35 else 90

theorem atan_code_ieee (h : IeeeOk fx b32 u w) (hu : u ≤ 1 / 1000) (hw : w ≤ 1 / 1000) (hs : SqrtOk ext) (hf : 3 ≤ ext.fuel) :
    ∃ e, polynomialCode ext fx b32 .atan ⟨-1, 0⟩ ⟨1, 0⟩ = .ok e ∧
    ∀ calls, ApproxIE (ieeeInterp (fmtOf b32) calls) "x" e.toR Real.arctan (Set.Icc (-1) 1) (atanErr b32 + 3 * u + 36 * w + atanOps b32 * (fmtOf b32).eps) := by
  have hn := h.nonneg
  have hε := FloatFmt.eps_pos (F := fmtOf b32)
  cases b32 with
  | true =>
    obtain ⟨e, h1, h2⟩ := h.polynomialCode_within_ieee (ext := ext) hu hw .atan rfl (by norm_num) (by decide) (atan_sharp_16 ext hs hf).1 (A' := 22 / 10)
      (T := 226 / 100) one_val.1 one_val.2 (by norm_num) (by norm_num) (atan_sharp_16 ext hs hf).2 (by positivity) (by norm_num) (by norm_num) (by norm_num) (by norm_num) (by norm_num)
    refine ⟨e, h1, fun calls => (h2 calls).mono le_rfl ?_⟩
    simp only [atanErr, atanOps, if_true, if_false, Bool.false_eq_true]
    push_cast
    linarith
  | false =>
    obtain ⟨e, h1, h2⟩ := h.polynomialCode_within_ieee (ext := ext) hu hw .atan rfl (by norm_num) (by decide) (atan_sharp_36 ext hs hf).1 (A' := 242 / 100)
      (T := 252 / 100) one_val.1 one_val.2 (by norm_num) (by norm_num) (atan_sharp_36 ext hs hf).2 (by positivity) (by norm_num) (by norm_num) (by norm_num) (by norm_num) (by norm_num)
    refine ⟨e, h1, fun calls => (h2 calls).mono le_rfl ?_⟩
    simp only [atanErr, atanOps, if_true, if_false, Bool.false_eq_true]
    push_cast
    linarith

/-- `PI_BY_2` as a float. -/
theorem DeclaredIE.half_pi {calls : String → List RV → RV} {g : Name → RV} (h : DeclaredIE ext b32 calls g) (hs : SqrtOk ext) (hf : 20 ≤ ext.fuel) :
    ∃ c, g ["PI_BY_2"] = .f c ∧ |c - Real.pi / 2| ≤ constErr b32 + 16 / 10 * (fmtOf b32).eps ∧ |c| ≤ 2 := by
  have hp := Real.pi_gt_d2
  have hp' := Real.pi_lt_d2
  have hε := FloatFmt.eps_pos (F := fmtOf b32)
  have heps := eps_fmtOf b32
  have hκ := constErr_le b32
  obtain ⟨c, hc, -, he⟩ := h.get hs hf (name := "PI_BY_2") (m := Real.pi / 2) (by simp [constMeaning]) (by rw [abs_of_pos (by linarith)]; linarith)
  rw [abs_of_pos (by linarith : 0 < Real.pi / 2)] at he
  have h1 : (fmtOf b32).eps * (Real.pi / 2 + 1 / 2 ^ 60) ≤ (fmtOf b32).eps * (16 / 10) := mul_le_mul_of_nonneg_left (by norm_num at *; linarith) hε.le
  have h2 : |c - Real.pi / 2| ≤ constErr b32 + 16 / 10 * (fmtOf b32).eps := by linarith
  refine ⟨c, hc, h2, ?_⟩
  have := abs_le.1 h2
  norm_num at heps hκ
  rw [abs_le]; constructor <;> linarith

/-- **C83** `atan` as the program ships it, in float arithmetic, at every finite argument. -/
theorem C83_atan (hs : SqrtOk ext) (hf : 20 ≤ ext.fuel) (h : IeeeOk fx b32 u w) (hu : u ≤ 1 / 1000) (hw : w ≤ 1 / 1000) :
    ∃ e, polynomialCode ext fx b32 .atan ⟨-1, 0⟩ ⟨1, 0⟩ = .ok e ∧
    ∀ (calls : String → List RV → RV) (g : Name → RV), DeclaredIE ext b32 calls g →
      ∀ a : ℝ, ∃ y, (Gen.atan e.toR).apply (ieeeInterp (fmtOf b32) calls) g [.f a] = .f y ∧
        |y - Real.arctan a| ≤ atanErr b32 + 3 * u + 36 * w + atanOps b32 * (fmtOf b32).eps + constErr b32 + 8 * (fmtOf b32).eps := by
  obtain ⟨e, h1, h2⟩ := atan_code_ieee (ext := ext) h hu hw hs (by omega)
  refine ⟨e, h1, fun calls g hd a => ?_⟩
  obtain ⟨c, hc, hc1, hc2⟩ := hd.half_pi hs hf
  have hF := FloatFmt.wide_fmtOf b32
  have hε := FloatFmt.eps_pos (F := fmtOf b32)
  have hτ := FloatFmt.tiny_pos (F := fmtOf b32)
  have hτ1 := FloatFmt.tiny_le hF
  have heps := eps_fmtOf b32
  have hn := h.nonneg
  have hκ := constErr_le b32
  have hk0 : 0 ≤ constErr b32 := by unfold constErr; positivity
  have hB := (FloatFmt.bias_pow_ge hF).1
  have hp' := Real.pi_lt_d2
  obtain ⟨P, hP, he⟩ := (h2 calls).1
  obtain ⟨E, hE⟩ : ∃ E, E = atanErr b32 + 3 * u + 36 * w + atanOps b32 * (fmtOf b32).eps := ⟨_, rfl⟩
  rw [← hE] at he ⊢
  by_cases ha : |a| < 1
  · have hm : a ∈ Set.Icc (-1 : ℝ) 1 := abs_le.1 ha.le
    refine ⟨P a, ?_, (he a hm).trans (by linarith)⟩
    simp only [Gen.atan, ofFty_apply, List.map, bindParams]
    simp [numIE_0 hF, numIE_1 hF, hc, ha]
    exact hP _ a (by simp) hm
  · have ha1 := not_lt.1 ha
    have ha0 : a ≠ 0 := by rintro rfl; norm_num at ha1
    have hr1 : |1 / a| ≤ 1 := by rw [abs_div, abs_one]; exact div_le_one_of_le₀ ha1 (abs_nonneg a)
    have hone : (fmtOf b32).Repr 1 := by
      have := FloatFmt.repr_int hF.ok (k := 1) (by rw [abs_one]; exact one_le_pow₀ (by norm_num))
      exact_mod_cast this
    have hrec := FloatFmt.rne_le hone hr1 (by rw [pow_succ]; norm_num at hB; linarith)
    obtain ⟨x, hx⟩ : ∃ x, x = (fmtOf b32).rnd (1 / a) := ⟨_, rfl⟩
    have hx1 : |x| ≤ 1 := hx ▸ FloatFmt.abs_rnd_le hone hr1
    have hx2 : |x - 1 / a| ≤ (fmtOf b32).eps * (3 / 2) := by
      rw [hx]; refine (FloatFmt.rnd_err _).trans (mul_le_mul_of_nonneg_left ?_ hε.le)
      norm_num at hτ1; linarith
    rw [← hx] at hrec
    have hm : x ∈ Set.Icc (-1 : ℝ) 1 := abs_le.1 hx1
    have hPx := he x hm
    have hat : |Real.arctan x| ≤ 16 / 10 := by
      have := Real.arctan_lt_pi_div_two x; have := Real.neg_pi_div_two_lt_arctan x
      rw [abs_le]; constructor <;> linarith
    have hE1 : E ≤ 1 / 2 := by
      have h3 : atanErr b32 ≤ 1 / 1000 := by unfold atanErr; split <;> norm_num
      have h4 : atanOps b32 * (fmtOf b32).eps ≤ 90 * (1 / 2 ^ 24) := mul_le_mul (by unfold atanOps; split <;> norm_num) heps hε.le (by norm_num)
      rw [hE]; norm_num at h4; linarith
    -- the sum
    have hsum : ∀ s : ℝ, |s| ≤ 2 → |s - P x| ≤ 42 / 10 := by
      intro s hs
      have := abs_le.1 hs; have := abs_le.1 hPx; have := abs_le.1 hat
      rw [abs_le]; constructor <;> linarith
    have hrn : ∀ s : ℝ, |s| ≤ 2 → (fmtOf b32).rne (s - P x) = .f ((fmtOf b32).rnd (s - P x)) ∧ |(fmtOf b32).rnd (s - P x) - (s - P x)| ≤ 43 / 10 * (fmtOf b32).eps := by
      intro s hs
      have h3 := hsum s hs
      refine ⟨FloatFmt.rne_f hF.ok (by norm_num at hB; linarith), ?_⟩
      refine (FloatFmt.rnd_err _).trans ?_
      rw [mul_comm]; refine mul_le_mul_of_nonneg_right ?_ hε.le
      norm_num at hτ1; linarith
    have hnon := arctan_nonexpansive x (1 / a)
    by_cases hneg : a < 0
    · obtain ⟨k1, k2⟩ := hrn (-c) (by rwa [abs_neg])
      refine ⟨(fmtOf b32).rnd (-c - P x), ?_, ?_⟩
      · simp only [Gen.atan, ofFty_apply, List.map, bindParams]
        simp [numIE_0 hF, numIE_1 hF, hc, ha, methIE_recip _ ha0]
        rw [← one_div, hrec, hP _ x (by simp) hm]
        simp [hneg, k1]
      · rw [one_div, Real.arctan_inv_of_neg hneg] at hnon
        have := abs_le.1 k2; have := abs_le.1 hnon; have := abs_le.1 hc1; have := abs_le.1 hPx
        rw [one_div] at hx2
        rw [abs_le]; constructor <;> linarith
    · obtain ⟨k1, k2⟩ := hrn c hc2
      refine ⟨(fmtOf b32).rnd (c - P x), ?_, ?_⟩
      · simp only [Gen.atan, ofFty_apply, List.map, bindParams]
        simp [numIE_0 hF, numIE_1 hF, hc, ha, methIE_recip _ ha0]
        rw [← one_div, hrec, hP _ x (by simp) hm]
        simp [hneg, k1]
      · rw [one_div, Real.arctan_inv_of_pos (lt_of_le_of_ne (not_lt.1 hneg) ha0.symm)] at hnon
        have := abs_le.1 k2; have := abs_le.1 hnon; have := abs_le.1 hc1; have := abs_le.1 hPx
        rw [one_div] at hx2
        rw [abs_le]; constructor <;> linarith

end

/-! ## The branches of `asin` and `acos` -/

namespace FloatFmt
variable {F : FloatFmt}

/-- Floats from a half on are multiples of the relative precision. -/
theorem Repr.grid {y : ℝ} (h : F.Repr y) (hy : 1 / 2 ≤ |y|) : ∃ k : ℤ, y = k * F.eps := by
  obtain ⟨m, e, rfl, h1, h2⟩ := h
  have hε := eps_pos (F := F)
  by_cases he : -(F.mant : ℤ) - 1 ≤ e
  · obtain ⟨d, hd⟩ : ∃ d : ℕ, e = d + (-(F.mant : ℤ) - 1) := ⟨(e - (-(F.mant : ℤ) - 1)).toNat, by omega⟩
    refine ⟨m * 2 ^ d, ?_⟩
    rw [hd, zpow_add₀ (by norm_num), zpow_natCast, eps]; push_cast; ring
  · -- only a half itself
    have hmR : |(m : ℝ)| ≤ 2 ^ (F.mant + 1) := by exact_mod_cast h1
    have he2 : (2 : ℝ) ^ e ≤ 2 ^ (-(F.mant : ℤ) - 2) := zpow_le_zpow_right₀ (by norm_num) (by omega)
    have hab : |(m : ℝ) * 2 ^ e| ≤ 1 / 2 := by
      rw [abs_mul, abs_of_pos (by positivity : (0 : ℝ) < 2 ^ e)]
      refine (mul_le_mul hmR he2 (by positivity) (by positivity)).trans ?_
      rw [← zpow_natCast, ← zpow_add₀ (by norm_num)]
      rw [show ((F.mant + 1 : ℕ) : ℤ) + (-(F.mant : ℤ) - 2) = -1 by push_cast; ring]
      norm_num
    have hhalf : (1 / 2 : ℝ) = ((2 ^ F.mant : ℤ) : ℝ) * F.eps := by
      rw [eps]; push_cast
      rw [← zpow_natCast, ← zpow_add₀ (by norm_num), show (F.mant : ℤ) + (-(F.mant : ℤ) - 1) = -1 by ring]; norm_num
    have heq : |(m : ℝ) * 2 ^ e| = 1 / 2 := le_antisymm hab hy
    rcases abs_choice ((m : ℝ) * 2 ^ e) with h' | h'
    · exact ⟨2 ^ F.mant, by rw [← hhalf, ← heq, h']⟩
    · exact ⟨-2 ^ F.mant, by rw [Int.cast_neg, neg_mul, ← hhalf, ← heq, h', neg_neg]⟩

/-- Two different floats from a half on are apart by the relative precision at least. -/
theorem Repr.gap {y z : ℝ} (hy : F.Repr y) (hz : F.Repr z) (h1 : 1 / 2 ≤ y) (h2 : y < z) : y + F.eps ≤ z := by
  have hε := eps_pos (F := F)
  obtain ⟨k, hk⟩ := hy.grid (by rw [abs_of_nonneg (by linarith)]; exact h1)
  obtain ⟨l, hl⟩ := hz.grid (by rw [abs_of_nonneg (by linarith)]; linarith)
  rw [hk, hl] at h2 ⊢
  have h3 : (k : ℝ) < l := lt_of_mul_lt_mul_right h2 hε.le
  have h4 : k + 1 ≤ l := by exact_mod_cast h3
  have h5 : (k : ℝ) + 1 ≤ l := by exact_mod_cast h4
  nlinarith

theorem repr_grid {k : ℤ} (hF : F.Wide) (hk : |k| ≤ 2 ^ (F.mant + 1)) : F.Repr (k * F.eps) :=
  ⟨k, _, rfl, hk, by have := hF.bias_ge; omega⟩

theorem repr_half (hF : F.Wide) : F.Repr (1 / 2) := by
  have := repr_eighths hF 4 (by norm_num); norm_num at this ⊢; exact this

/-- Rounding to a float less than half a step away. -/
theorem rnd_eq_of_near (hF : F.Wide) {x z : ℝ} (hz : F.Repr z) (hx : 1 / 2 ≤ x) (hz1 : 1 / 2 ≤ z) (h : |z - x| < F.eps / 2) : F.rnd x = z := by
  have h1 := abs_lt.1 ((rnd_nearest (F := F) x hz).trans_lt h)
  have h2 := abs_lt.1 h
  have h3 : 1 / 2 ≤ F.rnd x := le_rnd (repr_half hF) hx
  rcases lt_trichotomy (F.rnd x) z with h4 | h4 | h4
  · have := (rnd_repr x).gap hz h3 h4; linarith
  · exact h4
  · have := hz.gap (rnd_repr x) hz1 h4; linarith

end FloatFmt

/-- The limit in the source. -/
noncomputable def asinLim : ℝ := 70710678118654752440 / 10 ^ 20

theorem asinLim_sq : asinLim ^ 2 < 1 / 2 ∧ (1 / 2 - 1 / 10 ^ 19 : ℝ) < asinLim ^ 2 := by unfold asinLim; constructor <;> norm_num

/-- The float of the limit, and what the comparison of the rounded squares says about the argument and about the other side of the quarter circle. -/
theorem asin_lim (b32 : Bool) :
    let F := fmtOf b32
    let L := F.rnd asinLim
    7 / 10 ≤ L ∧ L ≤ 71 / 100 ∧ 49 / 100 ≤ F.rnd (L * L) ∧ (∀ a, F.Repr a → F.rnd (a * a) < F.rnd (L * L) → |a| ≤ asinLim) ∧
      ∀ q, F.rnd (L * L) ≤ q → q ≤ 1 → F.rnd √(F.rnd (1 - q)) ≤ asinLim := by
  intro F L
  have hF : F.Wide := FloatFmt.wide_fmtOf b32
  have hε := FloatFmt.eps_pos (F := F)
  have hLr : F.Repr L := FloatFmt.rnd_repr _
  -- the inner branch
  have inner : 1 / 2 ≤ L → L - F.eps ≤ asinLim → ∀ a, F.Repr a → F.rnd (a * a) < F.rnd (L * L) → |a| ≤ asinLim := by
    intro hL1 hL2 a ha hlt
    have h1 : a * a < L * L := by
      by_contra hc
      exact absurd (FloatFmt.rnd_mono (F := F) (not_lt.1 hc)) (not_le.2 hlt)
    have h2 : |a| < L := abs_lt_of_sq_lt_sq (by nlinarith) (by linarith)
    by_cases h3 : 1 / 2 ≤ |a|
    · have := ha.abs.gap hLr h3 h2; linarith
    · have : (1 / 2 : ℝ) ≤ asinLim := by unfold asinLim; norm_num
      linarith
  cases b32 with
  | true =>
    have heps : F.eps = 1 / 2 ^ 24 := by
      show (fmtOf true).eps = _
      rw [FloatFmt.eps, show -((fmtOf true).mant : ℤ) - 1 = -24 by decide]; norm_num
    have hgr : ∀ k : ℤ, |k| ≤ 2 ^ 24 → F.Repr (k / 2 ^ 24) := by
      intro k hk
      have := FloatFmt.repr_grid (F := F) hF (k := k) hk
      rwa [heps, mul_one_div] at this
    have hLz : F.Repr (11863283 / 2 ^ 24) := by have := hgr 11863283 (by norm_num); push_cast at this; exact this
    have hL : L = 11863283 / 2 ^ 24 :=
      FloatFmt.rnd_eq_of_near hF hLz (by unfold asinLim; norm_num) (by norm_num) (by rw [heps]; unfold asinLim; rw [abs_lt]; constructor <;> norm_num)
    have hQ : (1 / 2 - 1 / 2 ^ 25 : ℝ) ≤ F.rnd (L * L) := by
      refine FloatFmt.le_rnd (FloatFmt.repr_of_multiple (k := 2 ^ 24 - 1) (e := -25) (by norm_num) (by decide) ?_) (by rw [hL]; norm_num)
      rw [show ((F.mant : ℤ) + 1 + -25) = -1 by decide]; norm_num [abs_le]
    refine ⟨by rw [hL]; norm_num, by rw [hL]; norm_num, le_trans (by norm_num) hQ, inner (by rw [hL]; norm_num) (by rw [hL, heps]; unfold asinLim; norm_num), fun q hq1 hq2 => ?_⟩
    have h1 : F.rnd (1 - q) ≤ 1 / 2 := by
      have h2 : F.rnd (1 / 2 + 1 / 2 ^ 25) = 1 / 2 := FloatFmt.rnd_half hF (by norm_num) (by rw [heps]; norm_num)
      rw [← h2]; exact FloatFmt.rnd_mono (by linarith)
    have h2 : F.rnd √(1 / 2) = L := by
      have h3 : (11863283 / 2 ^ 24 : ℝ) ≤ √(1 / 2) := Real.le_sqrt_of_sq_le (by norm_num)
      have h4 : √(1 / 2 : ℝ) ≤ 11863283 / 2 ^ 24 + 1 / 2 ^ 26 := Real.sqrt_le_iff.2 ⟨by norm_num, by norm_num⟩
      rw [hL]
      refine FloatFmt.rnd_eq_of_near hF hLz (le_trans (by norm_num) h3) (by norm_num) ?_
      rw [heps, abs_lt]; norm_num at *; constructor <;> linarith
    calc F.rnd √(F.rnd (1 - q)) ≤ F.rnd √(1 / 2) := FloatFmt.rnd_mono (Real.sqrt_le_sqrt h1)
      _ ≤ asinLim := by rw [h2, hL]; unfold asinLim; norm_num
  | false =>
    have heps : F.eps = 1 / 2 ^ 53 := eps_f64
    have hgr : ∀ k : ℤ, |k| ≤ 2 ^ 53 → F.Repr (k / 2 ^ 53) := by
      intro k hk
      have := FloatFmt.repr_grid (F := F) hF (k := k) hk
      rwa [heps, mul_one_div] at this
    have hLz : F.Repr (6369051672525773 / 2 ^ 53) := by have := hgr 6369051672525773 (by norm_num); push_cast at this; exact this
    have hL : L = 6369051672525773 / 2 ^ 53 :=
      FloatFmt.rnd_eq_of_near hF hLz (by unfold asinLim; norm_num) (by norm_num) (by rw [heps]; unfold asinLim; rw [abs_lt]; constructor <;> norm_num)
    have hQ : (1 / 2 + 1 / 2 ^ 53 : ℝ) = F.rnd (L * L) := by
      have hz : F.Repr (1 / 2 + 1 / 2 ^ 53) := by have := hgr (2 ^ 52 + 1) (by norm_num); norm_num at this ⊢; exact this
      refine (FloatFmt.rnd_eq_of_near hF hz (by rw [hL]; norm_num) (by norm_num) ?_).symm
      rw [heps, hL, abs_lt]; constructor <;> norm_num
    refine ⟨by rw [hL]; norm_num, by rw [hL]; norm_num, le_trans (by norm_num) hQ.le, inner (by rw [hL]; norm_num) (by rw [hL, heps]; unfold asinLim; norm_num), fun q hq1 hq2 => ?_⟩
    have h1 : F.rnd (1 - q) ≤ 1 / 2 - 1 / 2 ^ 53 := by
      refine FloatFmt.rnd_le ?_ (by linarith)
      have := hgr (2 ^ 52 - 1) (by norm_num); norm_num at this ⊢; exact this
    have h2 : F.Repr (6369051672525772 / 2 ^ 53) := by have := hgr 6369051672525772 (by norm_num); push_cast at this; exact this
    refine (FloatFmt.rnd_le h2 (Real.sqrt_le_iff.2 ⟨by norm_num, h1.trans ?_⟩)).trans ?_
    · norm_num
    · unfold asinLim; norm_num

theorem sqrt_sub_sqrt {r p δ : ℝ} (hr : 0 ≤ r) (hp : 0 < p) (h : |r - p| ≤ δ * √p) : |√r - √p| ≤ δ := by
  have hsp : 0 < √p := Real.sqrt_pos.2 hp
  have e1 : r - p = (√r - √p) * (√r + √p) := by
    have h1 := Real.mul_self_sqrt hr
    have h2 := Real.mul_self_sqrt hp.le
    linear_combination -h1 + h2
  rw [e1, abs_mul, abs_of_pos (by positivity : 0 < √r + √p)] at h
  have h3 : |√r - √p| * √p ≤ |√r - √p| * (√r + √p) := mul_le_mul_of_nonneg_left (by linarith [Real.sqrt_nonneg r]) (abs_nonneg _)
  exact le_of_mul_le_mul_right (h3.trans h) hsp

/-- The other side of the quarter circle in float arithmetic.  The square of a float close to one is rounded to a float close to it with an error of
`(1 - |a|)²` at most, so less is lost than the steep square root suggests. -/
theorem edge_ieee {F : FloatFmt} (hF : F.Wide) {a : ℝ} (ha : F.Repr a) (h0 : 1 / 2 ≤ |a|) (h1 : |a| ≤ 1) :
    0 ≤ F.rnd (a * a) ∧ F.rnd (a * a) ≤ 1 ∧ 0 ≤ F.rnd (1 - F.rnd (a * a)) ∧ F.rnd (1 - F.rnd (a * a)) ≤ 1 ∧
    0 ≤ F.rnd √(F.rnd (1 - F.rnd (a * a))) ∧
    |F.rnd √(F.rnd (1 - F.rnd (a * a))) - √(1 - a * a)| ≤ F.eps ^ (3 / 4 : ℝ) + 3 * F.eps := by
  have hε := FloatFmt.eps_pos (F := F)
  have hτ := FloatFmt.tiny_pos (F := F)
  have hτ1 := FloatFmt.tiny_le hF
  have hone : F.Repr 1 := by
    have := FloatFmt.repr_int hF.ok (k := 1) (by rw [abs_one]; exact one_le_pow₀ (by norm_num))
    exact_mod_cast this
  have haa : a * a = |a| * |a| := (abs_mul_abs_self a).symm
  have hsq1 : a * a ≤ 1 := by rw [haa]; nlinarith [abs_nonneg a]
  have hsq0 : 1 / 4 ≤ a * a := by rw [haa]; nlinarith [abs_nonneg a]
  obtain ⟨q, hq⟩ : ∃ q, q = F.rnd (a * a) := ⟨_, rfl⟩
  rw [← hq]
  have hqr : F.Repr q := hq ▸ FloatFmt.rnd_repr _
  have hq1 : q ≤ 1 := hq ▸ FloatFmt.rnd_le hone hsq1
  have hq0 : 0 ≤ q := hq ▸ FloatFmt.le_rnd FloatFmt.repr_zero (by linarith)
  have hs0 : 0 ≤ F.rnd (1 - q) := FloatFmt.le_rnd FloatFmt.repr_zero (by linarith)
  have hs1 : F.rnd (1 - q) ≤ 1 := FloatFmt.rnd_le hone (by linarith)
  refine ⟨hq0, hq1, hs0, hs1, FloatFmt.le_rnd FloatFmt.repr_zero (Real.sqrt_nonneg _), ?_⟩
  -- the square
  have hd1 : |q - a * a| ≤ F.eps := by
    have := FloatFmt.rnd_rel (F := F) (x := a * a) (by rw [abs_of_nonneg (by linarith)]; norm_num at hτ1; linarith)
    rw [← hq, abs_of_nonneg (by linarith : 0 ≤ a * a)] at this
    nlinarith
  have hd2 : |q - a * a| ≤ (1 - |a|) ^ 2 := by
    obtain ⟨k, hk⟩ := ha.abs.grid (by rwa [abs_abs])
    have hz : F.Repr (2 * |a| - 1) := by
      have h2 : (1 : ℝ) = ((2 ^ (F.mant + 1) : ℤ) : ℝ) * F.eps := by
        rw [FloatFmt.eps]; push_cast
        rw [← zpow_natCast, ← zpow_add₀ (by norm_num), show ((F.mant + 1 : ℕ) : ℤ) + (-(F.mant : ℤ) - 1) = 0 by push_cast; ring]; norm_num
      refine FloatFmt.repr_of_multiple (k := 2 * k - 2 ^ (F.mant + 1)) (e := -(F.mant : ℤ) - 1) ?_ (by have := hF.bias_ge; omega) ?_
      · rw [hk]
        show 2 * (k * F.eps) - 1 = _ * F.eps
        push_cast at h2 ⊢; linarith
      · rw [show (F.mant : ℤ) + 1 + (-(F.mant : ℤ) - 1) = 0 by ring, zpow_zero, abs_le]; constructor <;> linarith
    have := FloatFmt.rnd_nearest (F := F) (a * a) hz
    rw [← hq, show 2 * |a| - 1 - a * a = -(1 - |a|) ^ 2 by rw [haa]; ring, abs_neg, abs_of_nonneg (sq_nonneg (1 - |a|))] at this
    exact this
  have hd3 : |q - a * a| ≤ F.eps ^ (3 / 4 : ℝ) * √(1 - |a|) := by
    have hd := abs_nonneg (q - a * a)
    have e1 : |q - a * a| = |q - a * a| ^ (3 / 4 : ℝ) * |q - a * a| ^ (1 / 4 : ℝ) := by
      rw [← Real.rpow_add_of_nonneg hd (by norm_num) (by norm_num)]; norm_num
    have e2 : √(1 - |a|) = ((1 - |a|) ^ 2) ^ (1 / 4 : ℝ) := by
      rw [Real.sqrt_eq_rpow, ← Real.rpow_natCast, ← Real.rpow_mul (by linarith)]; norm_num
    rw [e1, e2]
    exact mul_le_mul (Real.rpow_le_rpow hd hd1 (by norm_num)) (Real.rpow_le_rpow hd hd2 (by norm_num)) (by positivity) (by positivity)
  have hpos : 0 ≤ F.eps ^ (3 / 4 : ℝ) := by positivity
  have c1 : |√(1 - q) - √(1 - a * a)| ≤ F.eps ^ (3 / 4 : ℝ) := by
    rcases eq_or_lt_of_le hsq1 with h | h
    · have : q = 1 := by rw [hq, h, FloatFmt.rnd_of_repr hone]
      rw [this, h]; simpa using hpos
    · refine sqrt_sub_sqrt (by linarith) (by linarith) ?_
      rw [show 1 - q - (1 - a * a) = -(q - a * a) by ring, abs_neg]
      refine hd3.trans (mul_le_mul_of_nonneg_left (Real.sqrt_le_sqrt ?_) hpos)
      rw [haa]; nlinarith [abs_nonneg a]
  have c2 : |√(F.rnd (1 - q)) - √(1 - q)| ≤ F.eps := by
    rcases eq_or_lt_of_le hq1 with h | h
    · rw [h]; simp; exact hε.le
    · have hr : F.tiny ≤ 1 - q := by
        rcases le_or_gt (1 / 2) q with h2 | h2
        · have := hqr.gap hone h2 h
          have h3 : F.tiny ≤ F.eps := zpow_le_zpow_right₀ (by norm_num) (by have := hF.bias_ge; omega)
          linarith
        · norm_num at hτ1; linarith
      have := FloatFmt.rnd_rel (F := F) (x := 1 - q) (by rwa [abs_of_nonneg (by linarith)])
      rw [abs_of_nonneg (by linarith : 0 ≤ 1 - q)] at this
      refine sqrt_sub_sqrt hs0 (by linarith) (this.trans (mul_le_mul_of_nonneg_left ?_ hε.le))
      exact Real.le_sqrt_of_sq_le (by nlinarith)
  have c3 : |F.rnd √(F.rnd (1 - q)) - √(F.rnd (1 - q))| ≤ 2 * F.eps := by
    refine (FloatFmt.rnd_err _).trans ?_
    rw [mul_comm]
    refine mul_le_mul_of_nonneg_right ?_ hε.le
    have : √(F.rnd (1 - q)) ≤ 1 := Real.sqrt_le_one.2 hs1
    rw [abs_of_nonneg (Real.sqrt_nonneg _)]; norm_num at hτ1; linarith
  have := abs_le.1 c1; have := abs_le.1 c2; have := abs_le.1 c3
  rw [abs_le]; constructor <;> linarith

/-! ## `asin` and `acos` -/

noncomputable def asinOps (b32 : Bool) : ℝ := if b32 then 14 else 34

section
variable {ext : BdExt} {fx : FloatExt} {b32 : Bool} {u w : ℝ}

theorem asin_code_ieee (hs : SqrtOk ext) (hf : 20 ≤ ext.fuel) (h : IeeeOk fx b32 u w) (hu : u ≤ 1 / 1000) (hw : w ≤ 1 / 1000) :
    ∃ e, polynomialCode ext fx b32 .asin ⟨-70710678118654752440, 20⟩ ⟨70710678118654752440, 20⟩ = .ok e ∧
    ∀ calls, ApproxIE (ieeeInterp (fmtOf b32) calls) "x" e.toR Real.arcsin (Set.Icc (-asinLim) asinLim) (asinErr b32 + u + 36 * w + asinOps b32 * (fmtOf b32).eps) := by
  have hn := h.nonneg
  have hε := FloatFmt.eps_pos (F := fmtOf b32)
  cases b32 with
  | true =>
    obtain ⟨e, h1, h2⟩ := h.polynomialCode_within_ieee (ext := ext) hu hw .asin rfl (N := 15) (by norm_num) (by decide) (asin_sharp_16 ext hs (by omega) .asin rfl rfl rfl rfl).1 (A' := 85 / 100)
      (T := 9 / 10) asin_val.1 asin_val.2 (by norm_num) (by norm_num) (asin_sharp_16 ext hs (by omega) .asin rfl rfl rfl rfl).2 (by positivity) (by norm_num) (by norm_num) (by norm_num) (by norm_num) (by norm_num)
    refine ⟨e, h1, fun calls => (h2 calls).mono le_rfl ?_⟩
    simp only [asinErr, asinOps, if_true, if_false, Bool.false_eq_true]
    push_cast
    linarith
  | false =>
    obtain ⟨e, h1, h2⟩ := h.polynomialCode_within_ieee (ext := ext) hu hw .asin rfl (N := 35) (by norm_num) (by decide) (asin_sharp_36 ext hs (by omega)).1 (A' := 85 / 100)
      (T := 94 / 100) asin_val.1 asin_val.2 (by norm_num) (by norm_num) (asin_sharp_36 ext hs (by omega)).2 (by positivity) (by norm_num) (by norm_num) (by norm_num) (by norm_num) (by norm_num)
    refine ⟨e, h1, fun calls => (h2 calls).mono le_rfl ?_⟩
    simp only [asinErr, asinOps, if_true, if_false, Bool.false_eq_true]
    push_cast
    linarith

theorem acos_code_ieee (hs : SqrtOk ext) (hf : 20 ≤ ext.fuel) (h : IeeeOk fx b32 u w) (hu : u ≤ 1 / 1000) (hw : w ≤ 1 / 1000) :
    ∃ e, polynomialCode ext fx b32 .acos ⟨-70710678118654752440, 20⟩ ⟨70710678118654752440, 20⟩ = .ok e ∧
    ∀ calls, ApproxIE (ieeeInterp (fmtOf b32) calls) "x" e.toR Real.arcsin (Set.Icc (-asinLim) asinLim) (acosErr b32 + u + 36 * w + asinOps b32 * (fmtOf b32).eps) := by
  have hn := h.nonneg
  have hε := FloatFmt.eps_pos (F := fmtOf b32)
  cases b32 with
  | true =>
    obtain ⟨e, h1, h2⟩ := h.polynomialCode_within_ieee (ext := ext) hu hw .acos rfl (N := 15) (by norm_num) (by decide) (asin_sharp_16 ext hs (by omega) .acos rfl rfl rfl rfl).1 (A' := 85 / 100)
      (T := 9 / 10) asin_val.1 asin_val.2 (by norm_num) (by norm_num) (asin_sharp_16 ext hs (by omega) .acos rfl rfl rfl rfl).2 (by positivity) (by norm_num) (by norm_num) (by norm_num) (by norm_num) (by norm_num)
    refine ⟨e, h1, fun calls => (h2 calls).mono le_rfl ?_⟩
    simp only [acosErr, asinOps, if_true, if_false, Bool.false_eq_true]
    push_cast
    linarith
  | false =>
    obtain ⟨e, h1, h2⟩ := h.polynomialCode_within_ieee (ext := ext) hu hw .acos rfl (N := 33) (by norm_num) (by decide) (acos_sharp_34 ext hs (by omega)).1 (A' := 85 / 100)
      (T := 94 / 100) asin_val.1 asin_val.2 (by norm_num) (by norm_num) (acos_sharp_34 ext hs (by omega)).2 (by positivity) (by norm_num) (by norm_num) (by norm_num) (by norm_num) (by norm_num)
    refine ⟨e, h1, fun calls => (h2 calls).mono le_rfl ?_⟩
    simp only [acosErr, asinOps, if_true, if_false, Bool.false_eq_true]
    push_cast
    linarith

theorem eps_three_quarters {F : FloatFmt} (hF : F.Wide) : F.eps ^ (3 / 4 : ℝ) ≤ 1 / 2 ^ 15 := by
  have h1 : F.eps ≤ (1 / 2 ^ 5 : ℝ) ^ 4 := (FloatFmt.eps_le hF).trans (by norm_num)
  refine (Real.rpow_le_rpow FloatFmt.eps_pos.le h1 (by norm_num)).trans ?_
  rw [← Real.rpow_natCast, ← Real.rpow_mul (by norm_num)]
  norm_num

/-- What `asin` and `acos` compute before the last step. -/
theorem asin_parts {b32 : Bool} {calls : String → List RV → RV} {p : RExpr} {E : ℝ} (hE : E ≤ 1 / 2)
    (hp : Approximates (ieeeInterp (fmtOf b32) calls) "x" p Real.arcsin (Set.Icc (-asinLim) asinLim) E) {a : ℝ} (ha : (fmtOf b32).Repr a) (h1 : |a| ≤ 1) :
    let F := fmtOf b32
    F.rne (70710678118654752440 / 10 ^ 20) = .f (F.rnd asinLim) ∧ F.rne (F.rnd asinLim * F.rnd asinLim) = .f (F.rnd (F.rnd asinLim * F.rnd asinLim)) ∧
    F.rne (a * a) = .f (F.rnd (a * a)) ∧
    ∃ P : ℝ → ℝ, if F.rnd (a * a) < F.rnd (F.rnd asinLim * F.rnd asinLim) then
      (∀ env, env ["x"] = .f a → p.denote (ieeeInterp F calls) env = .f (P a)) ∧ |P a - Real.arcsin a| ≤ E ∧ |P a| ≤ 13 / 10
    else ∃ x, methIE F "sqrt" (F.rne (1 - F.rnd (a * a))) [] = .f x ∧
      (∀ env, env ["x"] = .f x → p.denote (ieeeInterp F calls) env = .f (P x)) ∧ |P x - Real.arcsin √(1 - a * a)| ≤ E + 2 * F.eps ^ (3 / 4 : ℝ) + 6 * F.eps ∧
      |P x| ≤ 13 / 10 := by
  intro F
  have hF : F.Wide := FloatFmt.wide_fmtOf b32
  have hε := FloatFmt.eps_pos (F := F)
  have heps : F.eps ≤ 1 / 2 ^ 21 := FloatFmt.eps_le hF
  have h34 := eps_three_quarters hF
  have hB := (FloatFmt.bias_pow_ge hF).1
  norm_num at hB heps h34
  obtain ⟨l1, l2, l3, l4, l5⟩ := asin_lim b32
  change 7 / 10 ≤ F.rnd asinLim at l1
  change F.rnd asinLim ≤ 71 / 100 at l2
  have haa0 : 0 ≤ a * a := mul_self_nonneg a
  have haa1 : a * a ≤ 1 := by rw [← abs_mul_abs_self]; nlinarith [abs_nonneg a]
  have hlim : asinLim ≤ 71 / 100 ∧ 0 ≤ asinLim := by unfold asinLim; constructor <;> norm_num
  have hbnd : ∀ x, |x| ≤ asinLim → |Real.arcsin x| ≤ 8 / 10 := by
    intro x hx
    have h2 : |x| ≤ √2 / 2 := by
      refine hx.trans ?_
      have := Real.le_sqrt_of_sq_le (show (2 * asinLim) ^ 2 ≤ 2 by unfold asinLim; norm_num)
      linarith
    have h3 : Real.arcsin (√2 / 2) = Real.pi / 4 := by
      rw [← Real.sin_pi_div_four, Real.arcsin_sin] <;> linarith [Real.pi_pos]
    have h4 := Real.monotone_arcsin (abs_le.1 h2).2
    have h5 := Real.monotone_arcsin (abs_le.1 h2).1
    rw [Real.arcsin_neg] at h5
    have := Real.pi_lt_d2
    rw [abs_le]; constructor <;> linarith
  have hPb : ∀ {y z : ℝ}, |y - z| ≤ E → |z| ≤ 8 / 10 → |y| ≤ 13 / 10 := by
    intro y z h2 h3
    have := abs_le.1 h2; have := abs_le.1 h3
    rw [abs_le]; constructor <;> linarith
  obtain ⟨P, hP, he⟩ := hp
  refine ⟨?_, FloatFmt.rne_f hF.ok (by rw [abs_of_nonneg (by positivity)]; nlinarith), FloatFmt.rne_f hF.ok (by rw [abs_of_nonneg haa0]; linarith), P, ?_⟩
  · exact FloatFmt.rne_f hF.ok (x := asinLim) (by rw [abs_of_nonneg hlim.2]; linarith [hlim.1])
  · split_ifs with hin
    · have hm := l4 a ha hin
      have hm' : a ∈ Set.Icc (-asinLim) asinLim := abs_le.1 hm
      exact ⟨fun env h => hP env a h hm', he a hm', hPb (he a hm') (hbnd a hm)⟩
    · have hq := not_lt.1 hin
      have h0 : 1 / 2 ≤ |a| := by
        by_contra hc
        rw [not_le] at hc
        have h2 : a * a ≤ 1 / 4 := by rw [← abs_mul_abs_self]; nlinarith [abs_nonneg a]
        have h3 : F.rnd (a * a) ≤ 1 / 4 := FloatFmt.rnd_le (by have := FloatFmt.repr_eighths hF 2 (by norm_num); norm_num at this ⊢; exact this) h2
        linarith
      obtain ⟨e1, e2, e3, e4, e5, e6⟩ := edge_ieee hF ha h0 h1
      have hx1 := l5 _ hq e2
      obtain ⟨x, hx⟩ : ∃ x, x = F.rnd √(F.rnd (1 - F.rnd (a * a))) := ⟨_, rfl⟩
      change F.rnd √(F.rnd (1 - F.rnd (a * a))) ≤ asinLim at hx1
      rw [← hx] at hx1 e5 e6
      have hm : |x| ≤ asinLim := by rwa [abs_of_nonneg e5]
      have hm' : x ∈ Set.Icc (-asinLim) asinLim := abs_le.1 hm
      refine ⟨x, ?_, fun env h => hP env x h hm', ?_, hPb (he x hm') (hbnd x hm)⟩
      · rw [FloatFmt.rne_f hF.ok (by rw [abs_of_nonneg (by linarith)]; linarith), methIE_sqrt F e3, hx]
        exact FloatFmt.rne_f hF.ok (by
          rw [abs_of_nonneg (Real.sqrt_nonneg _)]
          have := Real.sqrt_le_one.2 e4
          linarith)
      · have e7 := abs_le.1 e6
        have hL := arcsin_lipschitz (x := x) (c := √(1 - a * a)) (by linarith [hlim.1]) (by rw [abs_of_nonneg (Real.sqrt_nonneg _)]; linarith [hlim.1])
        have h2 := abs_le.1 (he x hm')
        have h3 := abs_le.1 (hL.trans (mul_le_mul_of_nonneg_left e6 (by norm_num)))
        rw [abs_le]; constructor <;> linarith

/-- **C83** `asin` as the program ships it, in float arithmetic, at every float of `[-1, 1]`. -/
theorem C83_asin (hs : SqrtOk ext) (hf : 20 ≤ ext.fuel) (h : IeeeOk fx b32 u w) (hu : u ≤ 1 / 2000) (hw : w ≤ 1 / 1000) :
    ∃ e, polynomialCode ext fx b32 .asin ⟨-70710678118654752440, 20⟩ ⟨70710678118654752440, 20⟩ = .ok e ∧
    ∀ (calls : String → List RV → RV) (g : Name → RV), DeclaredIE ext b32 calls g →
      ∀ a : ℝ, (fmtOf b32).Repr a → |a| ≤ 1 → ∃ y, (Gen.asin e.toR).apply (ieeeInterp (fmtOf b32) calls) g [.f a] = .f y ∧
        |y - Real.arcsin a| ≤ asinErr b32 + u + 36 * w + asinOps b32 * (fmtOf b32).eps + constErr b32 + 2 * (fmtOf b32).eps ^ (3 / 4 : ℝ) + 13 * (fmtOf b32).eps := by
  obtain ⟨e, h1, h2⟩ := asin_code_ieee (ext := ext) hs hf h (by linarith) hw
  refine ⟨e, h1, fun calls g hd a har ha => ?_⟩
  obtain ⟨c, hc, hc1, hc2⟩ := hd.half_pi hs hf
  have hF := FloatFmt.wide_fmtOf b32
  have hε := FloatFmt.eps_pos (F := fmtOf b32)
  have hτ1 := FloatFmt.tiny_le hF
  have heps := eps_fmtOf b32
  have hn := h.nonneg
  have hk0 : 0 ≤ constErr b32 := by unfold constErr; positivity
  have hB := (FloatFmt.bias_pow_ge hF).1
  norm_num at hB heps hτ1
  have h34 : 0 ≤ (fmtOf b32).eps ^ (3 / 4 : ℝ) := by positivity
  obtain ⟨E, hE⟩ : ∃ E, E = asinErr b32 + u + 36 * w + asinOps b32 * (fmtOf b32).eps := ⟨_, rfl⟩
  have hE1 : E ≤ 1 / 2 := by
    have h3 : asinErr b32 ≤ 1 / 1000 := by unfold asinErr; split <;> norm_num
    have h4 : asinOps b32 * (fmtOf b32).eps ≤ 34 * (1 / 16777216) := mul_le_mul (by unfold asinOps; split <;> norm_num) heps hε.le (by norm_num)
    rw [hE]; norm_num at h4; linarith
  rw [← hE] at h2 ⊢
  obtain ⟨r1, r2, r3, P, hP⟩ := asin_parts hE1 (h2 calls).1 har ha
  have hlit : ∀ env, (num "0.70710678118654752440").denote (ieeeInterp (fmtOf b32) calls) env = .f ((fmtOf b32).rnd asinLim) := fun env => by
    rw [denoteIE_num (d := ⟨70710678118654752440, 20⟩) _ _ _ rfl, asin_val.2, r1]
  have hedge := arcsin_edge a
  split_ifs at hP with hin
  · refine ⟨P a, ?_, by linarith [hP.2.1]⟩
    simp only [Gen.asin, Gen.insideLim, Gen.edgeArg, ofFty_apply, List.map, bindParams]
    simp [hlit, r2, r3, hin]
    exact hP.1 _ (by simp)
  · obtain ⟨x, hx, hPx, he, hb⟩ := hP
    have hm : ∀ s : ℝ, |s| = 1 → (fmtOf b32).rne (P x * s) = .f ((fmtOf b32).rnd (P x * s)) ∧ |(fmtOf b32).rnd (P x * s) - P x * s| ≤ 14 / 10 * (fmtOf b32).eps := by
      intro s hs
      have h3 : |P x * s| ≤ 13 / 10 := by rwa [abs_mul, hs, mul_one]
      refine ⟨FloatFmt.rne_f hF.ok (by linarith), (FloatFmt.rnd_err _).trans ?_⟩
      rw [mul_comm]; exact mul_le_mul_of_nonneg_right (by linarith) hε.le
    have hsub : ∀ k y : ℝ, |k| ≤ 2 → |y| ≤ 14 / 10 → (fmtOf b32).rne (k - y) = .f ((fmtOf b32).rnd (k - y)) ∧ |(fmtOf b32).rnd (k - y) - (k - y)| ≤ 35 / 10 * (fmtOf b32).eps := by
      intro k y hk hy
      have h3 : |k - y| ≤ 34 / 10 := by have := abs_le.1 hk; have := abs_le.1 hy; rw [abs_le]; constructor <;> linarith
      refine ⟨FloatFmt.rne_f hF.ok (by linarith), (FloatFmt.rnd_err _).trans ?_⟩
      rw [mul_comm]; exact mul_le_mul_of_nonneg_right (by linarith) hε.le
    by_cases hneg : a < 0
    · obtain ⟨m1, m2⟩ := hm (-1) (by norm_num)
      have hy : |(fmtOf b32).rnd (P x * -1)| ≤ 14 / 10 := by have := abs_le.1 m2; have := abs_le.1 hb; rw [abs_le]; constructor <;> linarith
      obtain ⟨m3, m4⟩ := hsub (-c) _ (by rwa [abs_neg]) hy
      refine ⟨(fmtOf b32).rnd (-c - (fmtOf b32).rnd (P x * -1)), ?_, ?_⟩
      · simp only [Gen.asin, Gen.insideLim, Gen.edgeArg, ofFty_apply, List.map, bindParams]
        simp [hlit, r2, r3, hin, numIE_0 hF, numIE_1 hF, hneg, hc, hx]
        rw [hPx _ (by simp)]
        simp only [binIE_mul, m1, binIE_sub, m3]
        simp
      · simp only [hneg, if_true] at hedge
        rw [hedge] at he
        have := abs_le.1 m2; have := abs_le.1 m4; have := abs_le.1 he; have := abs_le.1 hc1
        rw [abs_le]; constructor <;> linarith
    · obtain ⟨m1, m2⟩ := hm 1 (by norm_num)
      have hy : |(fmtOf b32).rnd (P x * 1)| ≤ 14 / 10 := by have := abs_le.1 m2; have := abs_le.1 hb; rw [abs_le]; constructor <;> linarith
      obtain ⟨m3, m4⟩ := hsub c _ hc2 hy
      refine ⟨(fmtOf b32).rnd (c - (fmtOf b32).rnd (P x * 1)), ?_, ?_⟩
      · simp only [Gen.asin, Gen.insideLim, Gen.edgeArg, ofFty_apply, List.map, bindParams]
        simp [hlit, r2, r3, hin, numIE_0 hF, numIE_1 hF, hneg, hc, hx]
        rw [hPx _ (by simp)]
        simp only [binIE_mul, m1, binIE_sub, m3]
        simp
      · simp only [hneg, if_false] at hedge
        rw [hedge] at he
        have := abs_le.1 m2; have := abs_le.1 m4; have := abs_le.1 he; have := abs_le.1 hc1
        rw [abs_le]; constructor <;> linarith

/-- `PI` as a float. -/
theorem DeclaredIE.pi {calls : String → List RV → RV} {g : Name → RV} (h : DeclaredIE ext b32 calls g) (hs : SqrtOk ext) (hf : 20 ≤ ext.fuel) :
    ∃ c, g ["PI"] = .f c ∧ |c - Real.pi| ≤ constErr b32 + 32 / 10 * (fmtOf b32).eps ∧ |c| ≤ 32 / 10 := by
  have hp := Real.pi_gt_d2
  have hp' := Real.pi_lt_d2
  have hε := FloatFmt.eps_pos (F := fmtOf b32)
  have heps := eps_fmtOf b32
  have hκ := constErr_le b32
  obtain ⟨c, hc, -, he⟩ := h.get hs hf (name := "PI") (m := Real.pi) (by simp [constMeaning]) (by rw [abs_of_pos (by linarith)]; linarith)
  rw [abs_of_pos (by linarith : 0 < Real.pi)] at he
  have h1 : (fmtOf b32).eps * (Real.pi + 1 / 2 ^ 60) ≤ (fmtOf b32).eps * (32 / 10) := mul_le_mul_of_nonneg_left (by norm_num at *; linarith) hε.le
  have h2 : |c - Real.pi| ≤ constErr b32 + 32 / 10 * (fmtOf b32).eps := by linarith
  refine ⟨c, hc, h2, ?_⟩
  have := abs_le.1 h2
  norm_num at heps hκ
  rw [abs_le]; constructor <;> linarith

/-- **C83** `acos` as the program ships it, in float arithmetic, at every float of `[-1, 1]`. -/
theorem C83_acos (hs : SqrtOk ext) (hf : 20 ≤ ext.fuel) (h : IeeeOk fx b32 u w) (hu : u ≤ 1 / 2000) (hw : w ≤ 1 / 1000) :
    ∃ e, polynomialCode ext fx b32 .acos ⟨-70710678118654752440, 20⟩ ⟨70710678118654752440, 20⟩ = .ok e ∧
    ∀ (calls : String → List RV → RV) (g : Name → RV), DeclaredIE ext b32 calls g →
      ∀ a : ℝ, (fmtOf b32).Repr a → |a| ≤ 1 → ∃ y, (Gen.acos e.toR).apply (ieeeInterp (fmtOf b32) calls) g [.f a] = .f y ∧
        |y - Real.arccos a| ≤ acosErr b32 + u + 36 * w + asinOps b32 * (fmtOf b32).eps + constErr b32 + 2 * (fmtOf b32).eps ^ (3 / 4 : ℝ) + 17 * (fmtOf b32).eps := by
  obtain ⟨e, h1, h2⟩ := acos_code_ieee (ext := ext) hs hf h (by linarith) hw
  refine ⟨e, h1, fun calls g hd a har ha => ?_⟩
  obtain ⟨c, hc, hc1, hc2⟩ := hd.half_pi hs hf
  obtain ⟨k, hk, hk1, hk2⟩ := hd.pi hs hf
  have hF := FloatFmt.wide_fmtOf b32
  have hε := FloatFmt.eps_pos (F := fmtOf b32)
  have hτ1 := FloatFmt.tiny_le hF
  have heps := eps_fmtOf b32
  have hn := h.nonneg
  have hk0 : 0 ≤ constErr b32 := by unfold constErr; positivity
  have hB := (FloatFmt.bias_pow_ge hF).1
  norm_num at hB heps hτ1
  have h34 : 0 ≤ (fmtOf b32).eps ^ (3 / 4 : ℝ) := by positivity
  obtain ⟨E, hE⟩ : ∃ E, E = acosErr b32 + u + 36 * w + asinOps b32 * (fmtOf b32).eps := ⟨_, rfl⟩
  have hE1 : E ≤ 1 / 2 := by
    have h3 : acosErr b32 ≤ 1 / 1000 := by unfold acosErr; split <;> norm_num
    have h4 : asinOps b32 * (fmtOf b32).eps ≤ 34 * (1 / 16777216) := mul_le_mul (by unfold asinOps; split <;> norm_num) heps hε.le (by norm_num)
    rw [hE]; norm_num at h4; linarith
  rw [← hE] at h2 ⊢
  obtain ⟨r1, r2, r3, P, hP⟩ := asin_parts hE1 (h2 calls).1 har ha
  have hlit : ∀ env, (num "0.70710678118654752440").denote (ieeeInterp (fmtOf b32) calls) env = .f ((fmtOf b32).rnd asinLim) := fun env => by
    rw [denoteIE_num (d := ⟨70710678118654752440, 20⟩) _ _ _ rfl, asin_val.2, r1]
  have hedge := arcsin_edge a
  have hm : ∀ x s : ℝ, |P x| ≤ 13 / 10 → |s| = 1 → (fmtOf b32).rne (P x * s) = .f ((fmtOf b32).rnd (P x * s)) ∧ |(fmtOf b32).rnd (P x * s) - P x * s| ≤ 14 / 10 * (fmtOf b32).eps := by
    intro x s hb hs
    have h3 : |P x * s| ≤ 13 / 10 := by rwa [abs_mul, hs, mul_one]
    refine ⟨FloatFmt.rne_f hF.ok (by linarith), (FloatFmt.rnd_err _).trans ?_⟩
    rw [mul_comm]; exact mul_le_mul_of_nonneg_right (by linarith) hε.le
  have hsub : ∀ k y : ℝ, |k| ≤ 32 / 10 → |y| ≤ 14 / 10 → (fmtOf b32).rne (k - y) = .f ((fmtOf b32).rnd (k - y)) ∧ |(fmtOf b32).rnd (k - y) - (k - y)| ≤ 47 / 10 * (fmtOf b32).eps := by
    intro k y hk hy
    have h3 : |k - y| ≤ 46 / 10 := by have := abs_le.1 hk; have := abs_le.1 hy; rw [abs_le]; constructor <;> linarith
    refine ⟨FloatFmt.rne_f hF.ok (by linarith), (FloatFmt.rnd_err _).trans ?_⟩
    rw [mul_comm]; exact mul_le_mul_of_nonneg_right (by linarith) hε.le
  split_ifs at hP with hin
  · obtain ⟨hPa, he, hb⟩ := hP
    obtain ⟨m3, m4⟩ := hsub c (P a) (by linarith) (by linarith)
    refine ⟨(fmtOf b32).rnd (c - P a), ?_, ?_⟩
    · simp only [Gen.acos, Gen.insideLim, Gen.edgeArg, ofFty_apply, List.map, bindParams]
      simp [hlit, r2, r3, hin]
      rw [hPa _ (by simp)]
      simp [hc, m3]
    · rw [Real.arccos]
      have := abs_le.1 m4; have := abs_le.1 he; have := abs_le.1 hc1
      rw [abs_le]; constructor <;> linarith
  · obtain ⟨x, hx, hPx, he, hb⟩ := hP
    by_cases hneg : a < 0
    · obtain ⟨m1, m2⟩ := hm x 1 hb (by norm_num)
      have hy : |(fmtOf b32).rnd (P x * 1)| ≤ 14 / 10 := by have := abs_le.1 m2; have := abs_le.1 hb; rw [abs_le]; constructor <;> linarith
      obtain ⟨m3, m4⟩ := hsub k _ hk2 hy
      refine ⟨(fmtOf b32).rnd (k - (fmtOf b32).rnd (P x * 1)), ?_, ?_⟩
      · simp only [Gen.acos, Gen.insideLim, Gen.edgeArg, ofFty_apply, List.map, bindParams]
        simp [hlit, r2, r3, hin, numIE_0 hF, numIE_1 hF, hneg, hk, hx]
        rw [hPx _ (by simp)]
        simp only [binIE_mul, m1, binIE_sub, m3]
        simp
      · simp only [hneg, if_true] at hedge
        rw [hedge] at he
        rw [Real.arccos]
        have := abs_le.1 m2; have := abs_le.1 m4; have := abs_le.1 he; have := abs_le.1 hk1
        rw [abs_le]; constructor <;> linarith
    · obtain ⟨m1, m2⟩ := hm x (-1) hb (by norm_num)
      have hy : |(fmtOf b32).rnd (P x * -1)| ≤ 14 / 10 := by have := abs_le.1 m2; have := abs_le.1 hb; rw [abs_le]; constructor <;> linarith
      obtain ⟨m3, m4⟩ := hsub 0 _ (by norm_num) hy
      refine ⟨(fmtOf b32).rnd (0 - (fmtOf b32).rnd (P x * -1)), ?_, ?_⟩
      · simp only [Gen.acos, Gen.insideLim, Gen.edgeArg, ofFty_apply, List.map, bindParams]
        simp [hlit, r2, r3, hin, numIE_0 hF, numIE_1 hF, hneg, hx]
        rw [hPx _ (by simp)]
        simp only [binIE_mul, m1, binIE_sub, m3]
        simp
      · simp only [hneg, if_false] at hedge
        rw [hedge] at he
        rw [Real.arccos]
        have := abs_le.1 m2; have := abs_le.1 m4; have := abs_le.1 he
        rw [abs_le]; constructor <;> linarith

/-! ## `atan2` -/

noncomputable def atan2Ops (b32 : Bool) : ℝ := if b32 then 182 else 410

theorem inv_ten_le_eps (b32 : Bool) : (1 : ℝ) / 10 ^ 16 ≤ (fmtOf b32).eps := by
  cases b32
  · rw [eps_f64]; norm_num
  · have : (fmtOf true).eps = 1 / 2 ^ 24 := by
      have : (fmtOf true).mant = 23 := by decide
      rw [FloatFmt.eps, this]; norm_num
    rw [this]; norm_num

theorem atan2_code_ieee (hs : SqrtOk ext) (hf : 3 ≤ ext.fuel) (h : IeeeOk fx b32 u w) (hu : u ≤ 1 / 1000) (hw : w ≤ 1 / 1000) (lo hi : Dec) (hlo : lo.val = -hi.val)
    (hhi : |(hi.val : ℝ) - Real.tan (Real.pi / 8)| ≤ 1 / 10 ^ 16) :
    ∃ e, polynomialCode ext fx b32 .atan2 lo hi = .ok e ∧ ∀ calls, ApproxIE (ieeeInterp (fmtOf b32) calls) "z" e.toR Real.arctan
      (Set.Icc (-(Real.tan (Real.pi / 8) + 3 * (fmtOf b32).eps)) (Real.tan (Real.pi / 8) + 3 * (fmtOf b32).eps)) (atan2Err b32 + u + 36 * w + atan2Ops b32 * (fmtOf b32).eps) := by
  obtain ⟨u0, w0⟩ := h.nonneg
  have hb := tan_eighth_bounds
  have hh := abs_le.1 hhi
  have hε := FloatFmt.eps_pos (F := fmtOf b32)
  have heps := eps_fmtOf b32
  have heps' := inv_ten_le_eps b32
  have hW1 : (41 / 100 : ℝ) ≤ hi.val := by norm_num at *; linarith
  have hW2 : (hi.val : ℝ) ≤ 42 / 100 := by norm_num at *; linarith
  have hq : 41 / 100 ≤ hi.val ∧ hi.val ≤ 42 / 100 := ⟨by have := hW1; rw [← Rat.cast_le (K := ℝ)]; push_cast; exact this, by rw [← Rat.cast_le (K := ℝ)]; push_cast; exact hW2⟩
  have hloR : (lo.val : ℝ) = -hi.val := by rw [hlo]; push_cast; rfl
  set W : ℝ := (hi.val : ℝ) with hWdef
  have main : ∀ (N n : ℕ) (ε : ℚ), N ≤ 35 → (N + 1) % 2 = 0 → shippedTerms "atan2" b32 = N + 1 → configDigits b32 = n → Atan2Ok N n ε → (0 : ℚ) ≤ ε →
      (45 / 100 : ℝ) + 2 * (ε + 5 / 4 * (42 / 100) ^ (N + 2) / (N + 2)) * ((24143 / 10000) ^ (N + 1) / (14142 / 10000)) ≤ 52 / 100 →
      ∃ e, polynomialCode ext fx b32 .atan2 lo hi = .ok e ∧ ∀ calls, ApproxIE (ieeeInterp (fmtOf b32) calls) "z" e.toR Real.arctan
        (Set.Icc (-(W + 4 * (fmtOf b32).eps)) (W + 4 * (fmtOf b32).eps)) (ε + u + 36 * w + (4 * (2 * N / W * (557 / 1000) + 1) + 101 / 100 * N * (6 / 10)) * (fmtOf b32).eps) := by
    intro N n ε hN hodd hk hn hok hε' hA
    obtain ⟨r, terms, h1, h2, h3, h4⟩ := atan2_terms ext hs hf N n hodd ε hok lo hi hlo hq
    have hN' : (N : ℝ) ≤ 35 := by exact_mod_cast hN
    have hN0 : (0 : ℝ) ≤ N := by positivity
    have hWp : ∀ k ≤ 36, (2 / 5 : ℝ) ^ 36 ≤ W ^ k := fun k hk =>
      (pow_le_pow_of_le_one (by norm_num) (by norm_num) hk).trans (pow_le_pow_left₀ (by norm_num) (by linarith) k)
    have hW0 : 0 < W := by linarith
    obtain ⟨e, he, ha⟩ := h.polynomialCode_ieee (ext := ext) (δ := 4 * (fmtOf b32).eps) (L := 1) (A' := 52 / 100) (T := 6 / 10) hu hw .atan2 lo hi N (by omega) hk
      (by rw [hn]; exact h1) h2 h3 hodd hloR rfl (by linarith) (by positivity) (by norm_num at heps ⊢; linarith) (by norm_num at heps ⊢; linarith) h4
      (nearPoly_arctan_odd N hodd hW0 hW2) (by positivity) hA (by norm_num)
      (by have := hWp N (by omega); norm_num at this ⊢; linarith) (by linarith) (by have := hWp (N + 1) (by omega); norm_num at this ⊢; linarith)
      (fun x c _ _ hxc => (arctan_nonexpansive c x).trans (by rw [abs_sub_comm]; linarith)) (by omega)
    refine ⟨e, he, fun calls => (ha calls).mono le_rfl ?_⟩
    have e5 : w * (N + 1) ≤ 36 * w := by nlinarith
    have e2 : (1 + u) * (52 / 100) + w * (N + 1) ≤ 557 / 1000 := by linarith
    have e4 : 2 * N / W * ((1 + u) * (52 / 100) + w * (N + 1)) ≤ 2 * N / W * (557 / 1000) := mul_le_mul_of_nonneg_left e2 (by positivity)
    have e6 := mul_le_mul_of_nonneg_left e4 (by positivity : 0 ≤ 4 * (fmtOf b32).eps)
    linarith
  have hsub : Set.Icc (-(Real.tan (Real.pi / 8) + 3 * (fmtOf b32).eps)) (Real.tan (Real.pi / 8) + 3 * (fmtOf b32).eps) ⊆ Set.Icc (-(W + 4 * (fmtOf b32).eps)) (W + 4 * (fmtOf b32).eps) := by
    have : Real.tan (Real.pi / 8) + 3 * (fmtOf b32).eps ≤ W + 4 * (fmtOf b32).eps := by linarith
    exact Set.Icc_subset_Icc (by linarith) this
  cases b32 with
  | true =>
    obtain ⟨e, h1, h2⟩ := main 15 20 (4 / 10 ^ 12) (by norm_num) rfl (by decide) rfl C81_atan2_shipped.1 (by norm_num) (by norm_num)
    refine ⟨e, h1, fun calls => (h2 calls).mono hsub ?_⟩
    have e1 : 2 * ((15 : ℕ) : ℝ) / W ≤ 74 := by rw [div_le_iff₀ (by linarith)]; push_cast; linarith
    have e2 : (4 * (2 * ((15 : ℕ) : ℝ) / W * (557 / 1000) + 1) + 101 / 100 * ((15 : ℕ) : ℝ) * (6 / 10)) * (fmtOf true).eps ≤ 182 * (fmtOf true).eps :=
      mul_le_mul_of_nonneg_right (by push_cast at *; linarith) hε.le
    simp only [atan2Err, atan2Ops, if_true]; push_cast at *; linarith
  | false =>
    obtain ⟨e, h1, h2⟩ := main 35 40 (5 / 10 ^ 26) (by norm_num) rfl (by decide) rfl C81_atan2_shipped.2 (by norm_num) (by norm_num)
    refine ⟨e, h1, fun calls => (h2 calls).mono hsub ?_⟩
    have e1 : 2 * ((35 : ℕ) : ℝ) / W ≤ 171 := by rw [div_le_iff₀ (by linarith)]; push_cast; linarith
    have e2 : (4 * (2 * ((35 : ℕ) : ℝ) / W * (557 / 1000) + 1) + 101 / 100 * ((35 : ℕ) : ℝ) * (6 / 10)) * (fmtOf false).eps ≤ 410 * (fmtOf false).eps :=
      mul_le_mul_of_nonneg_right (by push_cast at *; linarith) hε.le
    simp only [atan2Err, atan2Ops, if_false, Bool.false_eq_true]; push_cast at *; linarith

/-- The quotient of rounded numbers that `atan2` passes to the polynomial. -/
theorem rotate_quotient {t T M v q m1 x3 m2 y3 : ℝ} (ht : 414213 / 10 ^ 6 ≤ t ∧ t ≤ 414214 / 10 ^ 6) (hM : 0 < M) (hv0 : 0 ≤ v) (hv : v ≤ M)
    (hq0 : 0 < q) (hq : q ≤ M / 2 ^ 24) (hTv : |T * v - t * v| ≤ 43 / 100 * q) (hTM : |-T * M + t * M| ≤ 43 / 100 * q)
    (h1 : |m1 - T * v| ≤ 415 / 1000 * q) (h2 : |x3 - (m1 + M)| ≤ 1415 / 1000 * q) (h3 : |m2 - -T * M| ≤ 415 / 1000 * q) (h4 : |y3 - (m2 + v)| ≤ 587 / 1000 * q) :
    M / 2 ≤ x3 ∧ |y3 / x3 - (v - t * M) / (t * v + M)| ≤ 24 / 10 * (q / M) := by
  have hD : M ≤ t * v + M := by nlinarith
  have hx : |x3 - (t * v + M)| ≤ 226 / 100 * q := by
    have := abs_le.1 hTv; have := abs_le.1 h1; have := abs_le.1 h2
    rw [abs_le]; constructor <;> linarith
  have hy : |y3 - (v - t * M)| ≤ 1432 / 1000 * q := by
    have := abs_le.1 hTM; have := abs_le.1 h3; have := abs_le.1 h4
    rw [abs_le]; constructor <;> linarith
  have hx' := abs_le.1 hx
  have hx3 : M * (9999 / 10000) ≤ x3 := by norm_num at hq; linarith
  have hx0 : 0 < x3 := by linarith
  obtain ⟨z, hz⟩ : ∃ z, z = (v - t * M) / (t * v + M) := ⟨_, rfl⟩
  have hz1 : |z| ≤ 415 / 1000 := by
    have hD0 : 0 < t * v + M := by linarith
    have k1 : (v - t * M) ≤ 415 / 1000 * (t * v + M) := by
      nlinarith [mul_nonneg (by linarith [ht.1] : 0 ≤ t - 414213 / 10 ^ 6) hM.le, mul_nonneg (by linarith [ht.1] : 0 ≤ t - 414213 / 10 ^ 6) hv0]
    have k2 : -(415 / 1000) * (t * v + M) ≤ v - t * M := by
      nlinarith [mul_nonneg (by linarith [ht.2] : 0 ≤ 414214 / 10 ^ 6 - t) hM.le, mul_nonneg (by linarith [ht.1] : 0 ≤ t) hv0]
    rw [hz, abs_le]
    exact ⟨(le_div_iff₀ hD0).2 k2, (div_le_iff₀ hD0).2 k1⟩
  refine ⟨by linarith, ?_⟩
  rw [← hz]
  have hzD : z * (t * v + M) = v - t * M := by rw [hz]; exact div_mul_cancel₀ _ (by linarith)
  have e : y3 / x3 - z = ((y3 - (v - t * M)) - z * (x3 - (t * v + M))) / x3 := by
    rw [eq_div_iff hx0.ne', sub_mul, div_mul_cancel₀ _ hx0.ne', mul_sub, hzD]; ring
  have hnum : |(y3 - (v - t * M)) - z * (x3 - (t * v + M))| ≤ 2370 / 1000 * q := by
    refine (abs_sub _ _).trans ?_
    rw [abs_mul]
    have := mul_le_mul hz1 hx (abs_nonneg _) (by norm_num)
    linarith
  rw [e, abs_div, abs_of_pos hx0, div_le_iff₀ hx0]
  have k : q ≤ q / M * x3 * (10000 / 9999) := by
    rw [div_mul_eq_mul_div, div_mul_eq_mul_div, le_div_iff₀ hM]
    nlinarith
  linarith

/-- The rotated argument in float arithmetic: within `3` units of rounding of the exact one. -/
theorem rotate_ieee {T M v : ℝ} (hT : |T - Real.tan (Real.pi / 8)| ≤ 43 / 100 * (fmtOf b32).eps) (hM0 : 2 ^ 20 * (fmtOf b32).tiny ≤ M)
    (hM1 : 2 * M ≤ 2 ^ (fmtOf b32).bias) (hv0 : 0 ≤ v) (hv : v ≤ M) :
    let F := fmtOf b32
    ∃ m1 x3 m2 y3 z, F.rne (T * v) = .f m1 ∧ F.rne (m1 + M) = .f x3 ∧ F.rne (-T * M) = .f m2 ∧ F.rne (m2 + v) = .f y3 ∧ x3 ≠ 0 ∧ F.rne (y3 / x3) = .f z ∧
      |z - (v - Real.tan (Real.pi / 8) * M) / (Real.tan (Real.pi / 8) * v + M)| ≤ 3 * F.eps := by
  intro F
  have hF : F.Wide := FloatFmt.wide_fmtOf b32
  have hε : 0 < F.eps := FloatFmt.eps_pos (F := F)
  have hτ : 0 < F.tiny := FloatFmt.tiny_pos (F := F)
  have hτ1 := FloatFmt.tiny_le hF
  have heps : F.eps ≤ 1 / 2 ^ 24 := eps_fmtOf b32
  have hB := (FloatFmt.bias_pow_ge hF).1
  have ht := tan_eighth_bounds
  change |T - Real.tan (Real.pi / 8)| ≤ 43 / 100 * F.eps at hT
  change 2 ^ 20 * F.tiny ≤ M at hM0
  change 2 * M ≤ 2 ^ F.bias at hM1
  obtain ⟨t, htt⟩ : ∃ t, t = Real.tan (Real.pi / 8) := ⟨_, rfl⟩
  rw [← htt] at ht hT ⊢
  norm_num at hτ1 hB hM0
  have hM : 0 < M := by linarith
  have hT' := abs_le.1 hT
  have hT0 : 0 ≤ T := by norm_num at heps ht; linarith
  have hT1 : T ≤ 41422 / 100000 := by norm_num at heps ht; linarith
  have hT2 : 41421 / 100000 ≤ T := by norm_num at heps ht; linarith
  have hεM : F.eps * M ≤ M / 2 ^ 24 := by
    have := mul_le_mul_of_nonneg_right heps hM.le; linarith
  have hround : ∀ {y c d : ℝ}, |y| ≤ c * M → c + 1 / 10 ^ 6 ≤ d → c ≤ 2 → F.rne y = .f (F.rnd y) ∧ |F.rnd y - y| ≤ d * (F.eps * M) := by
    intro y c d hy hcd hc
    have h3 : c * M ≤ 2 * M := mul_le_mul_of_nonneg_right hc hM.le
    refine ⟨FloatFmt.rne_f hF.ok (by linarith), (FloatFmt.rnd_err _).trans ?_⟩
    have h4 : |y| + F.tiny ≤ d * M := by
      have := mul_le_mul_of_nonneg_right hcd hM.le
      norm_num at this; linarith
    calc F.eps * (|y| + F.tiny) ≤ F.eps * (d * M) := mul_le_mul_of_nonneg_left h4 hε.le
      _ = _ := by ring
  have hTv0 : 0 ≤ T * v := by positivity
  have hTv : T * v ≤ 41422 / 100000 * M := mul_le_mul hT1 hv hv0 (by norm_num)
  have hTM : T * M ≤ 41422 / 100000 * M := mul_le_mul_of_nonneg_right hT1 hM.le
  have hTM2 : 41421 / 100000 * M ≤ T * M := mul_le_mul_of_nonneg_right hT2 hM.le
  obtain ⟨a1, b1⟩ := hround (y := T * v) (c := 41422 / 100000) (d := 415 / 1000) (by rwa [abs_of_nonneg hTv0]) (by norm_num) (by norm_num)
  obtain ⟨a3, b3⟩ := hround (y := -T * M) (c := 41422 / 100000) (d := 415 / 1000) (by rw [neg_mul, abs_neg, abs_of_nonneg (by linarith)]; exact hTM) (by norm_num) (by norm_num)
  have b1' := abs_le.1 b1
  have b3' := abs_le.1 b3
  obtain ⟨m1, e1⟩ : ∃ m, m = F.rnd (T * v) := ⟨_, rfl⟩
  obtain ⟨m2, e2⟩ : ∃ m, m = F.rnd (-T * M) := ⟨_, rfl⟩
  rw [← e1] at a1 b1 b1'
  rw [← e2] at a3 b3 b3'
  norm_num at hεM
  obtain ⟨a2, b2⟩ := hround (y := m1 + M) (c := 1414221 / 1000000) (d := 1415 / 1000) (by rw [abs_le]; constructor <;> linarith) (by norm_num) (by norm_num)
  obtain ⟨a4, b4⟩ := hround (y := m2 + v) (c := 585791 / 1000000) (d := 587 / 1000) (by rw [abs_le]; constructor <;> linarith) (by norm_num) (by norm_num)
  obtain ⟨k1, k2⟩ := rotate_quotient (T := T) (q := F.eps * M) ht hM hv0 hv (by positivity) (by norm_num; linarith)
    (by rw [← sub_mul, abs_mul, abs_of_nonneg hv0]
        calc |T - t| * v ≤ 43 / 100 * F.eps * M := mul_le_mul hT hv hv0 (by positivity)
          _ = _ := by ring)
    (by rw [show -T * M + t * M = -((T - t) * M) by ring, abs_neg, abs_mul, abs_of_pos hM]
        calc |T - t| * M ≤ 43 / 100 * F.eps * M := mul_le_mul_of_nonneg_right hT hM.le
          _ = _ := by ring) b1 b2 b3 b4
  rw [mul_div_cancel_right₀ _ hM.ne'] at k2
  obtain ⟨x3, e3⟩ : ∃ m, m = F.rnd (m1 + M) := ⟨_, rfl⟩
  obtain ⟨y3, e4⟩ : ∃ m, m = F.rnd (m2 + v) := ⟨_, rfl⟩
  rw [← e3] at a2 k1 k2
  rw [← e4] at a4 k2
  have hD0 : 0 < t * v + M := by have : 0 ≤ t * v := mul_nonneg (by linarith) hv0; linarith
  have hz0 : |(v - t * M) / (t * v + M)| ≤ 415 / 1000 := by
    have c1 : 0 ≤ t * v := mul_nonneg (by linarith) hv0
    have c2 : t * M ≤ 414214 / 10 ^ 6 * M := mul_le_mul_of_nonneg_right ht.2 hM.le
    have c3 : 414213 / 10 ^ 6 * M ≤ t * M := mul_le_mul_of_nonneg_right ht.1 hM.le
    have c4 : 414213 / 10 ^ 6 * v ≤ t * v := mul_le_mul_of_nonneg_right ht.1 hv0
    rw [abs_le, le_div_iff₀ hD0, div_le_iff₀ hD0]
    norm_num at c2 c3 c4
    constructor <;> linarith
  have hq : |y3 / x3| ≤ 416 / 1000 := by
    have := abs_le.1 k2; have := abs_le.1 hz0
    norm_num at heps
    rw [abs_le]; constructor <;> linarith
  refine ⟨m1, x3, m2, y3, F.rnd (y3 / x3), a1, a2, a3, a4, by intro h; rw [h] at k1; linarith, FloatFmt.rne_f hF.ok (by linarith), ?_⟩
  have h5 : |F.rnd (y3 / x3) - y3 / x3| ≤ 5 / 10 * F.eps := by
    refine (FloatFmt.rnd_err _).trans ?_
    rw [mul_comm]; exact mul_le_mul_of_nonneg_right (by linarith) hε.le
  have := abs_le.1 h5; have := abs_le.1 k2
  rw [abs_le]; constructor <;> linarith

set_option maxHeartbeats 800000 in
/-- **C83** `atan2` as the program ships it, in float arithmetic, at every point that is neither near the origin nor so large that the rotation
overflows. -/
theorem C83_atan2 (hs : SqrtOk ext) (hf : 20 ≤ ext.fuel) (h : IeeeOk fx b32 u w) (hu : u ≤ 1 / 1000) (hw : w ≤ 1 / 1000) (lo hi : Dec) (hlo : lo.val = -hi.val)
    (hhi : |(hi.val : ℝ) - Real.tan (Real.pi / 8)| ≤ 1 / 10 ^ 16) :
    ∃ e, polynomialCode ext fx b32 .atan2 lo hi = .ok e ∧
    ∀ (calls : String → List RV → RV) (g : Name → RV), DeclaredIE ext b32 calls g →
      ∀ x y : ℝ, 2 ^ 20 * (fmtOf b32).tiny ≤ max |x| |y| → 2 * max |x| |y| ≤ 2 ^ (fmtOf b32).bias →
      ∃ a, (Gen.atan2 e.toR).apply (ieeeInterp (fmtOf b32) calls) g [.f y, .f x] = .f a ∧
        |a - Complex.arg (x + y * Complex.I)| ≤ atan2Err b32 + u + 36 * w + atan2Ops b32 * (fmtOf b32).eps + 3 * constErr b32 + 20 * (fmtOf b32).eps := by
  obtain ⟨e, h1, h2⟩ := atan2_code_ieee (ext := ext) hs (by omega) h hu hw lo hi hlo hhi
  refine ⟨e, h1, fun calls g hd x y hlow hhigh => ?_⟩
  have hF := FloatFmt.wide_fmtOf b32
  have hε := FloatFmt.eps_pos (F := fmtOf b32)
  have hτ := FloatFmt.tiny_pos (F := fmtOf b32)
  have hτ1 := FloatFmt.tiny_le hF
  have heps := eps_fmtOf b32
  have heps' := inv_ten_le_eps b32
  have hB := (FloatFmt.bias_pow_ge hF).1
  have hn := h.nonneg
  have hp := Real.pi_gt_d2
  have hp' := Real.pi_lt_d2
  have hκ := constErr_le b32
  have hk0 : 0 ≤ constErr b32 := by unfold constErr; positivity
  have htb := tan_eighth_bounds
  norm_num at hB heps hτ1
  obtain ⟨k, hk, hk1, hk2⟩ := hd.pi hs hf
  obtain ⟨c, hc, hc1, hc2⟩ := hd.half_pi hs hf
  obtain ⟨q, hq, -, hq1⟩ := hd.get hs hf (name := "PI_BY_8") (m := Real.pi / 8) (by simp [constMeaning]) (by rw [abs_of_pos (by linarith)]; linarith)
  obtain ⟨T, hT, -, hT1⟩ := hd.get hs hf (name := "TAN_PI_BY_8") (m := Real.tan (Real.pi / 8)) (by simp [constMeaning])
    (by rw [abs_of_pos (by norm_num at htb; linarith)]; norm_num at htb; linarith)
  rw [abs_of_pos (by linarith : 0 < Real.pi / 8)] at hq1
  rw [abs_of_pos (by norm_num at htb; linarith : 0 < Real.tan (Real.pi / 8))] at hT1
  have hq2 : |q - Real.pi / 8| ≤ constErr b32 + 4 / 10 * (fmtOf b32).eps := by
    have : (fmtOf b32).eps * (Real.pi / 8 + 1 / 2 ^ 60) ≤ (fmtOf b32).eps * (4 / 10) := mul_le_mul_of_nonneg_left (by norm_num; linarith) hε.le
    linarith
  have hT2 : |T - Real.tan (Real.pi / 8)| ≤ 43 / 100 * (fmtOf b32).eps := by
    have h3 : (fmtOf b32).eps * (Real.tan (Real.pi / 8) + 1 / 2 ^ 60) ≤ (fmtOf b32).eps * (42 / 100) := mul_le_mul_of_nonneg_left (by norm_num at htb ⊢; linarith) hε.le
    norm_num at hκ heps'
    linarith
  obtain ⟨E, hE⟩ : ∃ E, E = atan2Err b32 + u + 36 * w + atan2Ops b32 * (fmtOf b32).eps := ⟨_, rfl⟩
  have hE1 : E ≤ 1 / 10 := by
    have h3 : atan2Err b32 ≤ 1 / 1000 := by unfold atan2Err; split <;> norm_num
    have h4 : atan2Ops b32 * (fmtOf b32).eps ≤ 410 * (1 / 16777216) := mul_le_mul (by unfold atan2Ops; split <;> norm_num) heps hε.le (by norm_num)
    rw [hE]; norm_num at h4; linarith
  obtain ⟨P, hP, he⟩ := (h2 calls).1
  rw [← hE] at he ⊢
  have hxy : x ≠ 0 ∨ y ≠ 0 := by
    by_contra hcon
    push Not at hcon
    rw [hcon.1, hcon.2] at hlow
    simp at hlow
    linarith
  have harg := arg_by_octants hxy
  simp only at harg
  rw [harg]; clear harg
  simp only [Gen.atan2, ofFty_apply, List.map, bindParams]
  have hround : ∀ (y : ℝ) {c d : ℝ}, |y| ≤ c → c + 1 / 10 ^ 6 ≤ d → c ≤ 100 → (fmtOf b32).rne y = .f ((fmtOf b32).rnd y) ∧ |(fmtOf b32).rnd y - y| ≤ d * (fmtOf b32).eps := by
    intro y c d hy hcd hc
    refine ⟨FloatFmt.rne_f hF.ok (by linarith), (FloatFmt.rnd_err _).trans ?_⟩
    rw [mul_comm]; exact mul_le_mul_of_nonneg_right (by norm_num at hcd; linarith) hε.le
  -- the first octant
  have core : ∀ v M : ℝ, 0 ≤ v → v ≤ M → 2 ^ 20 * (fmtOf b32).tiny ≤ M → 2 * M ≤ 2 ^ (fmtOf b32).bias →
      ∃ m1 x3 m2 y3 z a, (fmtOf b32).rne (T * v) = .f m1 ∧ (fmtOf b32).rne (m1 + M) = .f x3 ∧ (fmtOf b32).rne (-T * M) = .f m2 ∧ (fmtOf b32).rne (m2 + v) = .f y3 ∧
        x3 ≠ 0 ∧ (fmtOf b32).rne (y3 / x3) = .f z ∧ (∀ env, env ["z"] = .f z → e.toR.denote (ieeeInterp (fmtOf b32) calls) env = .f (P z)) ∧ (fmtOf b32).rne (P z + q) = .f a ∧
        |a - Real.arctan (v / M)| ≤ E + constErr b32 + 48 / 10 * (fmtOf b32).eps ∧ |a| ≤ 95 / 100 := by
    intro v M hv0 hv hM0 hM1
    have hM : 0 < M := by linarith
    obtain ⟨m1, x3, m2, y3, z, r1, r2, r3, r4, r5, r6, r7⟩ := rotate_ieee hT2 hM0 hM1 hv0 hv
    have hT0 : 0 < Real.tan (Real.pi / 8) := by norm_num at htb; linarith
    have ez : (v - Real.tan (Real.pi / 8) * M) / (Real.tan (Real.pi / 8) * v + M) = (v / M - Real.tan (Real.pi / 8)) / (1 + v / M * Real.tan (Real.pi / 8)) := by
      have : Real.tan (Real.pi / 8) * v + M ≠ 0 := by positivity
      have : 1 + v / M * Real.tan (Real.pi / 8) ≠ 0 := by positivity
      rw [div_eq_div_iff ‹_› ‹_›]; field_simp; ring
    rw [ez] at r7
    have hr0 : 0 ≤ v / M := by positivity
    have hr1 : v / M ≤ 1 := (div_le_one hM).2 hv
    have hmem := rotated_range hr0 hr1 hT0.le
    rw [← tan_eighth] at hmem
    have r7' := abs_le.1 r7
    have hm : z ∈ Set.Icc (-(Real.tan (Real.pi / 8) + 3 * (fmtOf b32).eps)) (Real.tan (Real.pi / 8) + 3 * (fmtOf b32).eps) := ⟨by linarith [hmem.1], by linarith [hmem.2]⟩
    have hPz := abs_le.1 (he z hm)
    have hat := (arctan_nonexpansive z _).trans r7
    rw [arctan_rotate hr0 hT0.le, Real.arctan_tan (by linarith) (by linarith)] at hat
    have hat' := abs_le.1 hat
    have hq2' := abs_le.1 hq2
    have ha0 : 0 ≤ Real.arctan (v / M) := Real.arctan_nonneg.2 hr0
    have ha1 : Real.arctan (v / M) ≤ Real.pi / 4 := by rw [← Real.arctan_one]; exact Real.arctan_mono hr1
    have hκ' : constErr b32 ≤ 1 / 1000 := by norm_num at hκ ⊢; linarith
    obtain ⟨s1, s2⟩ := hround (P z + q) (c := 9 / 10) (d := 1) (by rw [abs_le]; constructor <;> linarith) (by norm_num) (by norm_num)
    have s2' := abs_le.1 s2
    refine ⟨m1, x3, m2, y3, z, _, r1, r2, r3, r4, r5, r6, fun env hz => hP env z hz hm, s1, ?_, ?_⟩
    · rw [abs_le]; constructor <;> linarith
    · rw [abs_le]; constructor <;> linarith
  have hk3 := abs_le.1 hk1
  have hk4 := abs_le.1 hk2
  have hc3 := abs_le.1 hc1
  have hc4 := abs_le.1 hc2
  by_cases hlt : |y| < |x|
  · rw [max_eq_left hlt.le] at hlow hhigh
    obtain ⟨m1, x3, m2, y3, z, a, r1, r2, r3, r4, r5, r6, r7, r8, r9, r10⟩ := core |y| |x| (abs_nonneg _) hlt.le hlow hhigh
    simp only [hlt, if_true]
    rw [neg_mul] at r3
    simp [hlt, hT, r1, r2, r3, r4, binIE_div _ r5, r6]
    rw [r7 _ (by simp)]
    generalize Real.arctan (|y| / |x|) = r at r9 ⊢
    have r9' := abs_le.1 r9
    have r10' := abs_le.1 r10
    obtain ⟨s1, s2⟩ := hround (k - a) (c := 42 / 10) (d := 43 / 10) (by rw [abs_le]; constructor <;> linarith) (by norm_num) (by norm_num)
    have s2' := abs_le.1 s2
    by_cases hx : 0 ≤ x <;> by_cases hy : 0 ≤ y <;> simp [hx, hy, hk, hq, r8, s1, numIE_0 hF] <;>
      rw [abs_le] <;> constructor <;> linarith
  · rw [max_eq_right (not_lt.1 hlt)] at hlow hhigh
    obtain ⟨m1, x3, m2, y3, z, a, r1, r2, r3, r4, r5, r6, r7, r8, r9, r10⟩ := core |x| |y| (abs_nonneg _) (not_lt.1 hlt) hlow hhigh
    simp only [hlt, if_false]
    rw [neg_mul] at r3
    simp [hlt, hT, r1, r2, r3, r4, binIE_div _ r5, r6]
    rw [r7 _ (by simp)]
    generalize Real.arctan (|x| / |y|) = r at r9 ⊢
    have r9' := abs_le.1 r9
    have r10' := abs_le.1 r10
    obtain ⟨t1, t2⟩ := hround (c - a) (c := 295 / 100) (d := 3) (by rw [abs_le]; constructor <;> linarith) (by norm_num) (by norm_num)
    have t2' := abs_le.1 t2
    obtain ⟨b, hb⟩ : ∃ b, b = (fmtOf b32).rnd (c - a) := ⟨_, rfl⟩
    rw [← hb] at t1 t2'
    obtain ⟨s1, s2⟩ := hround (k - b) (c := 62 / 10) (d := 63 / 10) (by rw [abs_le]; constructor <;> linarith) (by norm_num) (by norm_num)
    have s2' := abs_le.1 s2
    by_cases hx : 0 ≤ x <;> by_cases hy : 0 ≤ y <;> simp [hx, hy, hk, hq, hc, r8, t1, s1, numIE_0 hF] <;>
      rw [abs_le] <;> constructor <;> linarith

end

/-! ## The hypotheses can be met -/

/-- Near its end point `1` the square root leaves `eps^(3/4)`; at `3/4`, in double precision, `asin` is good to eight digits. -/
example : ∃ e, polynomialCode goodExt wideFx false .asin ⟨-70710678118654752440, 20⟩ ⟨70710678118654752440, 20⟩ = .ok e ∧
    ∃ y, (Gen.asin e.toR).apply (ieeeInterp .f64 (roundIE .f64 (declaredIE false))) (declaredIE false) [.f (3 / 4)] = .f y ∧
      |y - Real.arcsin (3 / 4)| ≤ 1 / 10 ^ 8 := by
  have htiny := FloatFmt.tiny_fmtOf false
  have hp := FloatFmt.tiny_pos (F := fmtOf false)
  obtain ⟨e, h1, h2⟩ := C83_asin (b32 := false) goodExt_ok (by decide) (wideFx_ieee false) (by rw [eps_f64]; norm_num) (by rw [eps_f64]; norm_num at *; linarith)
  refine ⟨e, h1, ?_⟩
  obtain ⟨y, hy, he⟩ := h2 _ _ (declaredIE_ok _ (roundIE .f64 (declaredIE false))) (3 / 4)
    (by have := FloatFmt.repr_eighths (FloatFmt.wide_fmtOf false) 6 (by norm_num); norm_num at this; exact this) (by norm_num)
  refine ⟨y, hy, he.trans ?_⟩
  have h34 : (fmtOf false).eps ^ (3 / 4 : ℝ) ≤ 1 / 2 ^ 39 := by
    refine (Real.rpow_le_rpow FloatFmt.eps_pos.le (by rw [eps_f64]; norm_num : _ ≤ (1 / 2 ^ 13 : ℝ) ^ 4) (by norm_num)).trans ?_
    rw [← Real.rpow_natCast, ← Real.rpow_mul (by norm_num)]
    norm_num
  rw [eps_f64] at h34 ⊢
  simp only [asinErr, asinOps, constErr, configDigits, Bool.false_eq_true, if_false]
  norm_num at *; linarith

/-- `acos(-1)` is near `π`. -/
example : ∃ e, polynomialCode goodExt wideFx false .acos ⟨-70710678118654752440, 20⟩ ⟨70710678118654752440, 20⟩ = .ok e ∧
    ∃ y, (Gen.acos e.toR).apply (ieeeInterp .f64 (roundIE .f64 (declaredIE false))) (declaredIE false) [.f (-1)] = .f y ∧
      |y - Real.pi| ≤ 1 / 10 ^ 8 := by
  have htiny := FloatFmt.tiny_fmtOf false
  have hp := FloatFmt.tiny_pos (F := fmtOf false)
  obtain ⟨e, h1, h2⟩ := C83_acos (b32 := false) goodExt_ok (by decide) (wideFx_ieee false) (by rw [eps_f64]; norm_num) (by rw [eps_f64]; norm_num at *; linarith)
  refine ⟨e, h1, ?_⟩
  obtain ⟨y, hy, he⟩ := h2 _ _ (declaredIE_ok _ (roundIE .f64 (declaredIE false))) (-1)
    (by have := FloatFmt.repr_eighths (FloatFmt.wide_fmtOf false) (-8) (by norm_num); norm_num at this; exact this) (by norm_num)
  rw [Real.arccos_neg_one] at he
  refine ⟨y, hy, he.trans ?_⟩
  have h34 : (fmtOf false).eps ^ (3 / 4 : ℝ) ≤ 1 / 2 ^ 39 := by
    refine (Real.rpow_le_rpow FloatFmt.eps_pos.le (by rw [eps_f64]; norm_num : _ ≤ (1 / 2 ^ 13 : ℝ) ^ 4) (by norm_num)).trans ?_
    rw [← Real.rpow_natCast, ← Real.rpow_mul (by norm_num)]
    norm_num
  rw [eps_f64] at h34 ⊢
  simp only [acosErr, asinOps, constErr, configDigits, Bool.false_eq_true, if_false]
  norm_num at *; linarith

/-- `atan` far from the interval of the polynomial. -/
example : ∃ e, polynomialCode goodExt wideFx false .atan ⟨-1, 0⟩ ⟨1, 0⟩ = .ok e ∧
    ∃ y, (Gen.atan e.toR).apply (ieeeInterp .f64 (roundIE .f64 (declaredIE false))) (declaredIE false) [.f (-1000)] = .f y ∧
      |y - Real.arctan (-1000)| ≤ 1 / 10 ^ 11 := by
  have htiny := FloatFmt.tiny_fmtOf false
  have hp := FloatFmt.tiny_pos (F := fmtOf false)
  obtain ⟨e, h1, h2⟩ := C83_atan (b32 := false) goodExt_ok (by decide) (wideFx_ieee false) (by rw [eps_f64]; norm_num) (by rw [eps_f64]; norm_num at *; linarith)
  refine ⟨e, h1, ?_⟩
  obtain ⟨y, hy, he⟩ := h2 _ _ (declaredIE_ok _ (roundIE .f64 (declaredIE false))) (-1000)
  refine ⟨y, hy, he.trans ?_⟩
  rw [eps_f64]
  simp only [atanErr, atanOps, constErr, configDigits, Bool.false_eq_true, if_false]
  norm_num at *; linarith

/-- The third quadrant, with the bounds of the polynomial to twenty digits. -/
example : ∃ e, polynomialCode goodExt wideFx false .atan2 ⟨-41421356237309504880, 20⟩ ⟨41421356237309504880, 20⟩ = .ok e ∧
    ∃ a, (Gen.atan2 e.toR).apply (ieeeInterp .f64 (roundIE .f64 (declaredIE false))) (declaredIE false) [.f (-1), .f (-2)] = .f a ∧
      |a - Complex.arg (-2 + -1 * Complex.I)| ≤ 1 / 10 ^ 11 := by
  have htiny := FloatFmt.tiny_fmtOf false
  have hp := FloatFmt.tiny_pos (F := fmtOf false)
  obtain ⟨e, h1, h2⟩ := C83_atan2 (b32 := false) goodExt_ok (by decide) (wideFx_ieee false) (by rw [eps_f64]; norm_num) (by rw [eps_f64]; norm_num at *; linarith)
    ⟨-41421356237309504880, 20⟩ ⟨41421356237309504880, 20⟩ (by norm_num [Dec.val]) (by
      have hpi := Real.pi_pos
      have hT : 0 < Real.tan (Real.pi / 8) := Real.tan_pos_of_pos_of_lt_pi_div_two (by linarith) (by linarith)
      have h := tan_eighth
      rw [eq_div_iff (by positivity)] at h
      have hv : (((⟨41421356237309504880, 20⟩ : Dec).val : ℚ) : ℝ) = 41421356237309504880 / 10 ^ 20 := by norm_num [Dec.val]
      rw [hv, abs_le]
      constructor <;> nlinarith)
  refine ⟨e, h1, ?_⟩
  obtain ⟨a, hy, he⟩ := h2 _ _ (declaredIE_ok _ (roundIE .f64 (declaredIE false))) (-2) (-1)
    (by norm_num at *; linarith)
    (by have := (FloatFmt.bias_pow_ge (FloatFmt.wide_fmtOf false)).1; norm_num at *; linarith)
  push_cast at he
  refine ⟨a, hy, he.trans ?_⟩
  rw [eps_f64]
  simp only [atan2Err, atan2Ops, constErr, configDigits, Bool.false_eq_true, if_false]
  norm_num at *; linarith

end Verif

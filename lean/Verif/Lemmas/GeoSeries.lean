import Mathlib.Analysis.SpecialFunctions.Complex.Arctan
import Mathlib.Analysis.SpecialFunctions.Log.Deriv
import Mathlib.Data.Nat.Choose.Central
import Verif.Lemmas.Terms

/-! # Series with coefficients at most `1/i`: atan, ln, asin -/

namespace Verif
namespace Bd
open Dec Finset

/-- No constant term, coefficients at most `1/i`, and never growing. -/
structure GeoLike (c : ℕ → ℚ) : Prop where
  zero : c 0 = 0
  le : ∀ i, |c (i + 1)| ≤ 1 / ((i : ℚ) + 1)
  anti : ∀ N k, c N ≠ 0 → |c (N + k)| ≤ |c N|

theorem GeoLike.le_one {c : ℕ → ℚ} (h : GeoLike c) (i : ℕ) : |c i| ≤ 1 := by
  cases i with
  | zero => rw [h.zero]; simp
  | succ i =>
    refine (h.le i).trans ?_
    rw [div_le_one (by positivity)]
    have : (0 : ℚ) ≤ i := by positivity
    linarith

theorem geo_le_inv (x ρ g : ℚ) (hg : g * (1 - ρ) = 1) (hg0 : 0 < g) (hx : |x| ≤ ρ) (i : ℕ) : geo x i ≤ g := by
  have hρ : 0 ≤ ρ := (abs_nonneg x).trans hx
  have hρ1 : ρ < 1 := by
    by_contra h
    have : g * (1 - ρ) ≤ 0 := mul_nonpos_of_nonneg_of_nonpos hg0.le (by linarith)
    linarith
  induction i with
  | zero => simp [geo, hg0.le]
  | succ i ih =>
    rw [geo_succ]
    have h0 := geo_nonneg x i
    have : |x| * geo x i ≤ ρ * g := mul_le_mul hx ih h0 hρ
    nlinarith

/-- Error of a series with coefficients at most `1/i` for `|x| ≤ ρ < 1`, where `g = 1/(1-ρ)`. -/
theorem geoLike_error {σ : Type} (x : Dec) (n : ℕ) (f : Closure σ) (c : ℕ → ℚ) (hc : GeoLike c) (ε : ℚ) (hε : 0 ≤ ε)
    (hε2 : ε ≤ 1 / 2) (Inv : ℕ → σ → Prop) (hf : Follows f c ε Inv) (s : σ) (hs : Inv 0 s)
    (ρ g : ℚ) (hg : g * (1 - ρ) = 1) (hg0 : 0 < g) (hx : |x.val| ≤ ρ)
    (K : ℕ) (hK1 : 4 + 2 * g ≤ K) (hK2 : ρ ^ K ≤ 1 / 100 ^ n) (hK : K ≤ 30001) (hcK : c K ≠ 0)
    (v : ℝ) (hv : HasSum (fun j => (c j : ℝ) * (x.val : ℝ) ^ j) v) :
    ∃ d, maclaurin x n f s = .ok d ∧ |(d.val : ℝ) - v| ≤ 1 / 20 / 10 ^ n + ε * g +
      1 / 100 ^ n * (K * g + K / 2 + g * (1 + K * g / 2)) := by
  have hρ : 0 ≤ ρ := (abs_nonneg _).trans hx
  have hρ1 : ρ < 1 := by
    by_contra h
    have : g * (1 - ρ) ≤ 0 := mul_nonpos_of_nonneg_of_nonpos hg0.le (by linarith)
    linarith
  have hgR : (0 : ℝ) < (g : ℝ) := by exact_mod_cast hg0
  refine maclaurin_real x n f c ε hε hε2 Inv hf s hs K hK hcK ?_ v g (K * g) g hgR.le ?_ ?_ ?_
  · set u : ℚ := 1 / 100 ^ n with hu
    have hu0 : 0 < u := by rw [hu]; positivity
    have hKpos : (0 : ℚ) < K := by linarith
    have hcK' : |c K| ≤ 1 / K := by
      cases K with
      | zero => simp at hKpos
      | succ K => have := hc.le K; push_cast; exact this
    have h1 : |x.val| ^ K ≤ u := le_trans (by gcongr) hK2
    have h2 := geo_le_inv x.val ρ g hg hg0 hx K
    have h2' := geo_nonneg x.val K
    have h3 : |x.val| ^ K + u / 2 * geo x.val K ≤ u * (1 + g / 2) := by
      have := mul_le_mul_of_nonneg_left h2 (by positivity : 0 ≤ u / 2)
      linarith
    have h4 : |c K| * (|x.val| ^ K + u / 2 * geo x.val K) ≤ 1 / K * (u * (1 + g / 2)) :=
      mul_le_mul hcK' h3 (by positivity) (by positivity)
    have h5 : 1 / K * (u * (1 + g / 2)) ≤ u / 4 := by
      rw [div_mul_eq_mul_div, div_le_iff₀ hKpos]
      nlinarith
    have h6 : (1 + ε) * (|c K| * (|x.val| ^ K + u / 2 * geo x.val K)) ≤ 3 / 2 * (u / 4) :=
      mul_le_mul (by linarith) (h4.trans h5) (by positivity) (by norm_num)
    linarith
  · intro N _
    have : ∑ j ∈ range N, |c j| * |x.val| ^ j ≤ g := by
      refine le_trans ?_ (geo_le_inv x.val ρ g hg hg0 hx N)
      unfold geo
      refine Finset.sum_le_sum fun j _ => ?_
      have := hc.le_one j
      have h0 : 0 ≤ |x.val| ^ j := by positivity
      nlinarith
    exact_mod_cast this
  · intro N hN
    have : ∑ j ∈ range (N + 1), |c j| * geo x.val j ≤ K * g := by
      rw [Finset.sum_range_succ', hc.zero]
      simp only [abs_zero, zero_mul, add_zero]
      have h1 : ∀ j ∈ range N, |c (j + 1)| * geo x.val (j + 1) ≤ g := by
        intro j _
        have h2 := geo_le_inv x.val ρ g hg hg0 hx (j + 1)
        have h3 := hc.le_one (j + 1)
        have h4 := geo_nonneg x.val (j + 1)
        have h5 := abs_nonneg (c (j + 1))
        nlinarith
      refine (Finset.sum_le_sum h1).trans ?_
      rw [Finset.sum_const, card_range, nsmul_eq_mul]
      have : (N : ℚ) ≤ K := by exact_mod_cast hN
      gcongr
    exact_mod_cast this
  · intro N _ hN
    have hρR : (0 : ℝ) ≤ (ρ : ℝ) := by exact_mod_cast hρ
    have hρ1R : (ρ : ℝ) < 1 := by exact_mod_cast hρ1
    have hw : HasSum (fun k : ℕ => (ρ : ℝ) ^ k) (g : ℝ) := by
      have h := hasSum_geometric_of_lt_one hρR hρ1R
      have e : (1 - (ρ : ℝ))⁻¹ = g := by
        have : (g : ℝ) * (1 - ρ) = 1 := by exact_mod_cast hg
        exact (eq_inv_of_mul_eq_one_left this).symm
      rwa [e] at h
    have hxR : |(x.val : ℝ)| ≤ ρ := by
      have : ((|x.val| : ℚ) : ℝ) ≤ (ρ : ℝ) := by exact_mod_cast hx
      simpa using this
    have h := tail_bound _ v hv N _ _ hw (fun k => ?_)
    · have e1 : ((∑ j ∈ range N, c j * x.val ^ j : ℚ) : ℝ) = ∑ j ∈ range N, (c j : ℝ) * (x.val : ℝ) ^ j := by push_cast; rfl
      have e2 : ((|c N| * |x.val| ^ N : ℚ) : ℝ) = |(c N : ℝ) * (x.val : ℝ) ^ N| := by push_cast; rw [abs_mul, abs_pow]
      rw [e1, e2]; exact h
    · rw [abs_mul, abs_mul, abs_pow, abs_pow, pow_add]
      have h2 : |(c (N + k) : ℝ)| ≤ |(c N : ℝ)| := by
        have := hc.anti N k hN
        have h3 : ((|c (N + k)| : ℚ) : ℝ) ≤ ((|c N| : ℚ) : ℝ) := by exact_mod_cast this
        push_cast at h3; exact h3
      calc |(c (N + k) : ℝ)| * (|(x.val : ℝ)| ^ N * |(x.val : ℝ)| ^ k)
          ≤ |(c N : ℝ)| * (|(x.val : ℝ)| ^ N * (ρ : ℝ) ^ k) := by gcongr
        _ = |(c N : ℝ)| * |(x.val : ℝ)| ^ N * (ρ : ℝ) ^ k := by ring

/-! ## The coefficients -/

/-- Arctangent. -/
def atanC (i : ℕ) : ℚ := if i % 2 = 0 then 0 else if i / 2 % 2 = 0 then 1 / (i : ℚ) else -(1 / (i : ℚ))

/-- `ln(1+x)`. -/
def lnPlusC (i : ℕ) : ℚ := if i = 0 then 0 else if i % 2 = 0 then -(1 / (i : ℚ)) else 1 / (i : ℚ)

/-- `ln(1-x)`. -/
def lnMinusC (i : ℕ) : ℚ := if i = 0 then 0 else -(1 / (i : ℚ))

/-- Arcsine. -/
def asinC (i : ℕ) : ℚ := if i % 2 = 0 then 0 else (Nat.centralBinom (i / 2) : ℚ) / 4 ^ (i / 2) / i

theorem abs_atanC_le (i : ℕ) : |atanC i| ≤ 1 / (i : ℚ) := by
  unfold atanC
  split_ifs
  · simp
  · rw [abs_of_nonneg (by positivity)]
  · rw [abs_neg, abs_of_nonneg (by positivity)]

theorem abs_lnPlusC_le (i : ℕ) : |lnPlusC i| ≤ 1 / (i : ℚ) := by
  unfold lnPlusC
  split_ifs
  · simp
  · rw [abs_neg, abs_of_nonneg (by positivity)]
  · rw [abs_of_nonneg (by positivity)]

theorem abs_lnMinusC_le (i : ℕ) : |lnMinusC i| ≤ 1 / (i : ℚ) := by
  unfold lnMinusC
  split_ifs
  · simp
  · rw [abs_neg, abs_of_nonneg (by positivity)]

theorem abs_atanC_eq (i : ℕ) (h : atanC i ≠ 0) : |atanC i| = 1 / (i : ℚ) := by
  unfold atanC at *
  split_ifs at * with h1
  · exact absurd rfl h
  · rw [abs_of_nonneg (by positivity)]
  · rw [abs_neg, abs_of_nonneg (by positivity)]

theorem abs_lnPlusC_eq (i : ℕ) (h : lnPlusC i ≠ 0) : |lnPlusC i| = 1 / (i : ℚ) := by
  unfold lnPlusC at *
  split_ifs at * with h1
  · exact absurd rfl h
  · rw [abs_neg, abs_of_nonneg (by positivity)]
  · rw [abs_of_nonneg (by positivity)]

theorem abs_lnMinusC_eq (i : ℕ) (h : lnMinusC i ≠ 0) : |lnMinusC i| = 1 / (i : ℚ) := by
  unfold lnMinusC at *
  split_ifs at * with h1
  · exact absurd rfl h
  · rw [abs_neg, abs_of_nonneg (by positivity)]

theorem inv_anti (N k : ℕ) (hN : N ≠ 0) : 1 / ((N + k : ℕ) : ℚ) ≤ 1 / (N : ℚ) := by
  have : (0 : ℚ) < N := by positivity
  have h2 : (N : ℚ) ≤ ((N + k : ℕ) : ℚ) := by push_cast; linarith [(by positivity : (0 : ℚ) ≤ k)]
  exact one_div_le_one_div_of_le this h2

theorem geoLike_atan : GeoLike atanC where
  zero := rfl
  le i := by have := abs_atanC_le (i + 1); push_cast at this; exact this
  anti N k h := by
    rw [abs_atanC_eq N h]
    have hN : N ≠ 0 := by rintro rfl; exact h rfl
    exact (abs_atanC_le _).trans (inv_anti N k hN)

theorem geoLike_lnPlus : GeoLike lnPlusC where
  zero := rfl
  le i := by have := abs_lnPlusC_le (i + 1); push_cast at this; exact this
  anti N k h := by
    rw [abs_lnPlusC_eq N h]
    have hN : N ≠ 0 := by rintro rfl; exact h rfl
    exact (abs_lnPlusC_le _).trans (inv_anti N k hN)

theorem geoLike_lnMinus : GeoLike lnMinusC where
  zero := rfl
  le i := by have := abs_lnMinusC_le (i + 1); push_cast at this; exact this
  anti N k h := by
    rw [abs_lnMinusC_eq N h]
    have hN : N ≠ 0 := by rintro rfl; exact h rfl
    exact (abs_lnMinusC_le _).trans (inv_anti N k hN)

/-- `centralBinom k / 4^k`. -/
def cbr (k : ℕ) : ℚ := (Nat.centralBinom k : ℚ) / 4 ^ k

theorem cbr_pos (k : ℕ) : 0 < cbr k := by
  unfold cbr
  have : 0 < Nat.centralBinom k := Nat.centralBinom_pos k
  positivity

theorem cbr_succ (k : ℕ) : cbr (k + 1) = cbr k * ((2 * k + 1) / (2 * k + 2)) := by
  unfold cbr
  have h := Nat.succ_mul_centralBinom_succ k
  have h2 : ((k : ℚ) + 1) * (Nat.centralBinom (k + 1) : ℚ) = 2 * (2 * k + 1) * (Nat.centralBinom k : ℚ) := by
    exact_mod_cast h
  rw [pow_succ]
  field_simp
  linear_combination 2 * h2

theorem cbr_anti (k j : ℕ) : cbr (k + j) ≤ cbr k := by
  induction j with
  | zero => rfl
  | succ j ih =>
    rw [← add_assoc, cbr_succ]
    have h1 := cbr_pos (k + j)
    have h2 : ((2 * ((k + j : ℕ) : ℚ) + 1) / (2 * ((k + j : ℕ) : ℚ) + 2)) ≤ 1 := by
      rw [div_le_one (by positivity)]; linarith
    nlinarith

theorem cbr_le_one (k : ℕ) : cbr k ≤ 1 := by
  have := cbr_anti 0 k
  simpa [cbr] using this

theorem asinC_odd (k : ℕ) : asinC (2 * k + 1) = cbr k / ((2 * k + 1 : ℕ) : ℚ) := by
  unfold asinC cbr
  rw [if_neg (by omega), show (2 * k + 1) / 2 = k by omega]

theorem asinC_even (k : ℕ) : asinC (2 * k) = 0 := by
  unfold asinC
  rw [if_pos (by omega)]

theorem asinC_nonneg (i : ℕ) : 0 ≤ asinC i := by
  unfold asinC; split_ifs <;> positivity

theorem geoLike_asin : GeoLike asinC where
  zero := rfl
  le i := by
    rw [abs_of_nonneg (asinC_nonneg _)]
    rcases Nat.even_or_odd' (i + 1) with ⟨k, hk | hk⟩
    · rw [hk, asinC_even]; positivity
    · rw [hk, asinC_odd, ← hk]
      push_cast
      have := cbr_le_one k
      gcongr
  anti N k h := by
    rw [abs_of_nonneg (asinC_nonneg _), abs_of_nonneg (asinC_nonneg _)]
    obtain ⟨m, hm | hm⟩ := Nat.even_or_odd' N
    · rw [hm, asinC_even] at h; exact absurd rfl h
    · obtain ⟨l, hl | hl⟩ := Nat.even_or_odd' (N + k)
      · rw [hl, asinC_even]; exact asinC_nonneg _
      · rw [hl, hm, asinC_odd, asinC_odd]
        obtain ⟨j, rfl⟩ : ∃ j, l = m + j := ⟨l - m, by omega⟩
        have h1 := cbr_anti m j
        have h2 := cbr_pos (m + j)
        apply div_le_div₀ (cbr_pos m).le h1 (by positivity)
        push_cast
        have : (0 : ℚ) ≤ j := by positivity
        linarith

/-! ## The closures -/

theorem follows_atan : Follows atanTerm atanC divEps (fun _ _ => True) := by
  intro i s t P F _ _
  unfold atanC atanTerm
  by_cases h : i % 2 = 0
  · simp [h]
  · have hi : (i : ℚ) ≠ 0 := by
      have : i ≠ 0 := by rintro rfl; exact h rfl
      positivity
    simp only [h, if_false, ne_eq, not_false_eq_true, if_true]
    by_cases h2 : i / 2 % 2 = 0
    · simp only [h2, if_true, not_true, if_false]
      obtain ⟨q, hq, he⟩ := div_follow P (ofInt (i : Int)) (1 / (i : ℚ)) (by rw [val_ofInt]; push_cast; field_simp)
      refine ⟨fun h0 => absurd h0 (by positivity), fun _ => ⟨s, t + q, by rw [hq]; rfl, trivial, ?_⟩⟩
      rw [val_add, add_sub_cancel_left]; exact he
    · simp only [h2, if_false, not_false_eq_true, if_true]
      obtain ⟨q, hq, he⟩ := div_follow P (ofInt (-(i : Int))) (-(1 / (i : ℚ))) (by rw [val_ofInt]; push_cast; field_simp)
      refine ⟨fun h0 => absurd (neg_eq_zero.1 h0) (by positivity), fun _ => ⟨s, t + q, by rw [hq]; rfl, trivial, ?_⟩⟩
      rw [val_add, add_sub_cancel_left]; exact he

theorem follows_lnPlus : Follows lnPlusTerm lnPlusC divEps (fun _ _ => True) := by
  intro i s t P F _ _
  unfold lnPlusC lnPlusTerm
  by_cases h : i = 0
  · simp [h]
  · have hi : (i : ℚ) ≠ 0 := by positivity
    simp only [h, if_false]
    by_cases h2 : i % 2 = 0
    · simp only [h2, if_true]
      obtain ⟨q, hq, he⟩ := div_follow P (ofInt (-(i : Int))) (-(1 / (i : ℚ))) (by rw [val_ofInt]; push_cast; field_simp)
      refine ⟨fun h0 => absurd (neg_eq_zero.1 h0) (by positivity), fun _ => ⟨s, t + q, by rw [hq]; rfl, trivial, ?_⟩⟩
      rw [val_add, add_sub_cancel_left]; exact he
    · simp only [h2, if_false]
      obtain ⟨q, hq, he⟩ := div_follow P (ofInt (i : Int)) (1 / (i : ℚ)) (by rw [val_ofInt]; push_cast; field_simp)
      refine ⟨fun h0 => absurd h0 (by positivity), fun _ => ⟨s, t + q, by rw [hq]; rfl, trivial, ?_⟩⟩
      rw [val_add, add_sub_cancel_left]; exact he

theorem follows_lnMinus : Follows lnMinusTerm lnMinusC divEps (fun _ _ => True) := by
  intro i s t P F _ _
  unfold lnMinusC lnMinusTerm
  by_cases h : i = 0
  · simp [h]
  · have hi : (i : ℚ) ≠ 0 := by positivity
    simp only [h, if_false]
    obtain ⟨q, hq, he⟩ := div_follow P (ofInt (-(i : Int))) (-(1 / (i : ℚ))) (by rw [val_ofInt]; push_cast; field_simp)
    refine ⟨fun h0 => absurd (neg_eq_zero.1 h0) (by positivity), fun _ => ⟨s, t + q, by rw [hq]; rfl, trivial, ?_⟩⟩
    rw [val_add, add_sub_cancel_left]; exact he

/-- The captured `numer` and `denom`: their quotient is `centralBinom k / 4^k`. -/
def asinInv (i : ℕ) (s : Dec × Dec) : Prop := s.2.val ≠ 0 ∧ s.1.val = cbr (i / 2) * s.2.val

theorem follows_asin : Follows asinTerm asinC (3 * divEps) asinInv := by
  intro i s t P F hinv _
  obtain ⟨hs2, hs1⟩ := hinv
  obtain ⟨k, rfl | rfl⟩ := Nat.even_or_odd' i
  · rw [asinC_even]
    unfold asinTerm
    rw [if_neg (by omega)]
    refine ⟨fun _ => ⟨s, rfl, hs2, ?_⟩, fun h => absurd rfl h⟩
    rw [hs1, show 2 * k / 2 = (2 * k + 1) / 2 by omega]
  · rw [asinC_odd]
    have hk2 : (2 * k + 1) / 2 = k := by omega
    rw [hk2] at hs1
    have hcb := cbr_pos k
    have hpos : 0 < cbr k / ((2 * k + 1 : ℕ) : ℚ) := by positivity
    refine ⟨fun h => absurd h hpos.ne', fun _ => ?_⟩
    have hz : (ofInt ((2 * k + 1 : ℕ) : Int)).val = ((2 * k + 1 : ℕ) : ℚ) := by rw [val_ofInt]; push_cast; rfl
    obtain ⟨q1, hq1, he1⟩ := (div_spec (P * s.1) s.2).2 hs2
    obtain ⟨q2, hq2, he2⟩ := (div_spec q1 (ofInt ((2 * k + 1 : ℕ) : Int))).2 (by rw [hz]; positivity)
    refine ⟨(s.1 * ofInt ((2 * k + 1 : ℕ) : Int), s.2 * ofInt (((2 * k + 1 : ℕ) : Int) + 1)), t + q2, ?_, ⟨?_, ?_⟩, ?_⟩
    · unfold asinTerm
      rw [if_pos (by omega)]
      simp only [hq1, hq2, Res.ok_bind, Res.pure_eq]
    · rw [val_mul, val_ofInt]
      refine mul_ne_zero hs2 ?_
      push_cast
      positivity
    · rw [val_mul, val_mul, hz, hs1, val_ofInt, show (2 * k + 1 + 1) / 2 = k + 1 by omega, cbr_succ]
      push_cast
      field_simp
      ring
    · rw [val_add, add_sub_cancel_left]
      rw [val_mul, hs1, show P.val * (cbr k * s.2.val) / s.2.val = cbr k * P.val by field_simp] at he1
      rw [hz] at he2
      set z : ℚ := ((2 * k + 1 : ℕ) : ℚ) with hzdef
      have hz0 : 0 < z := by rw [hzdef]; positivity
      set A := cbr k * P.val with hA
      have e1 : cbr k / z * P.val = A / z := by rw [hA]; ring
      rw [e1]
      have h1 : |q1.val / z - A / z| ≤ divEps * |A / z| := by
        rw [← sub_div, abs_div, abs_div, abs_of_pos hz0, mul_div_assoc']
        gcongr
      have h2 : |q1.val / z| ≤ (1 + divEps) * |A / z| := by
        have := abs_add_le (q1.val / z - A / z) (A / z)
        rw [sub_add_cancel] at this
        linarith
      have h3 := abs_add_le (q2.val - q1.val / z) (q1.val / z - A / z)
      rw [sub_add_sub_cancel] at h3
      have h0 := divEps_nonneg
      have h5 := divEps_le
      have h4 : divEps * |q1.val / z| ≤ divEps * ((1 + divEps) * |A / z|) := mul_le_mul_of_nonneg_left h2 h0
      have h6 : 0 ≤ |A / z| := abs_nonneg _
      have h7 : divEps * ((1 + divEps) * |A / z|) ≤ 2 * divEps * |A / z| := by nlinarith [mul_nonneg h0 h6]
      linarith

/-! ## The sums -/

theorem hasSum_atan (x : ℝ) (hx : |x| < 1) : HasSum (fun j => (atanC j : ℝ) * x ^ j) (Real.arctan x) := by
  refine hasSum_odd (Real.hasSum_arctan (by rwa [Real.norm_eq_abs])) (fun k => ?_) (fun k => ?_)
  · have : atanC (2 * k) = 0 := by unfold atanC; rw [if_pos (by omega)]
    rw [this]; simp
  · unfold atanC
    rw [if_neg (by omega), show (2 * k + 1) / 2 = k by omega]
    rcases Nat.even_or_odd' k with ⟨m, rfl | rfl⟩
    · rw [if_pos (by omega)]; simp; ring
    · rw [if_neg (by omega)]; simp [pow_succ]; ring

theorem hasSum_lnMinus (x : ℝ) (hx : |x| < 1) : HasSum (fun j => (lnMinusC j : ℝ) * x ^ j) (Real.log (1 - x)) := by
  have h := (Real.hasSum_pow_div_log_of_abs_lt_one hx).neg
  rw [neg_neg] at h
  rw [← hasSum_nat_add_iff' 1]
  simp only [Finset.range_one, Finset.sum_singleton]
  have h0 : lnMinusC 0 = 0 := rfl
  rw [h0]
  simp only [Rat.cast_zero, zero_mul, sub_zero]
  convert h using 2 with j
  unfold lnMinusC
  rw [if_neg (by omega)]
  push_cast
  ring

theorem hasSum_lnPlus (x : ℝ) (hx : |x| < 1) : HasSum (fun j => (lnPlusC j : ℝ) * x ^ j) (Real.log (1 + x)) := by
  have h := hasSum_lnMinus (-x) (by rwa [abs_neg])
  rw [sub_neg_eq_add] at h
  convert h using 2 with j
  unfold lnPlusC lnMinusC
  by_cases h0 : j = 0
  · simp [h0]
  · rcases Nat.even_or_odd j with he | ho
    · rw [if_neg h0, if_neg h0, if_pos (Nat.even_iff.1 he), he.neg_pow]
    · rw [if_neg h0, if_neg h0, if_neg (by rw [Nat.odd_iff] at ho; omega), ho.neg_pow]; push_cast; ring

end Bd
end Verif

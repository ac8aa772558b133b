import Verif.Lemmas.IeeeCode

/-!
# Rounding to an integer in IEEE 754 arithmetic

Generated `round` adds a half with the sign of the argument and drops the fraction.  In float arithmetic the addition is rounded.
-/

namespace Verif
open RExpr

namespace FloatFmt
variable {F : FloatFmt}

/-- A format of at least the size of `f32`. -/
structure Wide (F : FloatFmt) : Prop where
  mant : 20 ≤ F.mant
  ebits : 8 ≤ F.ebits
  width : F.width ≤ F.bias

theorem wide_fmtOf (b32 : Bool) : (fmtOf b32).Wide := by cases b32 <;> exact ⟨by decide, by decide, by decide⟩

theorem Wide.ok (h : F.Wide) : F.Ok := ⟨by have := h.mant; omega, by have := h.ebits; omega⟩
theorem Wide.bias_ge (h : F.Wide) : F.mant + 9 ≤ F.bias ∧ 29 ≤ F.bias := by
  have h1 := h.width; have h2 := h.ebits; have h3 := h.mant
  unfold FloatFmt.width at h1; omega

theorem eps_le (h : F.Wide) : F.eps ≤ 1 / 2 ^ 21 := by
  unfold eps
  have h1 := h.mant
  calc (2 : ℝ) ^ (-(F.mant : ℤ) - 1) ≤ (2 : ℝ) ^ (-21 : ℤ) := zpow_le_zpow_right₀ (by norm_num) (by omega)
    _ = _ := by norm_num

theorem tiny_le (h : F.Wide) : F.tiny ≤ 1 / 2 ^ 28 := by
  unfold tiny
  have h1 := h.bias_ge
  calc (2 : ℝ) ^ (1 - (F.bias : ℤ)) ≤ (2 : ℝ) ^ (-28 : ℤ) := zpow_le_zpow_right₀ (by norm_num) (by omega)
    _ = _ := by norm_num

theorem bias_pow_ge (h : F.Wide) : (2 : ℝ) ^ 29 ≤ 2 ^ F.bias ∧ (2 : ℝ) ^ (F.mant + 9) ≤ 2 ^ F.bias :=
  ⟨pow_le_pow_right₀ (by norm_num) h.bias_ge.2, pow_le_pow_right₀ (by norm_num) h.bias_ge.1⟩

/-- Small multiples of `1/8` are floats. -/
theorem repr_eighths (h : F.Wide) (k : ℤ) (hk : |k| ≤ 2 ^ 20) : F.Repr (k / 8) :=
  ⟨k, -3, by norm_num [div_eq_mul_inv], hk.trans (pow_le_pow_right₀ (by norm_num) (by have := h.mant; omega)), by have := h.bias_ge; omega⟩

theorem rne_eighths (h : F.Wide) {x : ℝ} (k : ℤ) (hx : x = k / 8) (hk : |k| ≤ 2 ^ 20) : F.rne x = .f x := by
  subst hx
  refine rne_repr (repr_eighths h k hk) ?_
  have h1 : |(k : ℝ)| ≤ 2 ^ 20 := by exact_mod_cast hk
  rw [abs_div, abs_of_pos (by norm_num : (0 : ℝ) < 8), pow_succ]
  have := (bias_pow_ge h).1
  norm_num at *
  linarith

theorem log_half {y : ℝ} (h1 : 1 / 2 ≤ y) (h2 : y < 1) : Int.log 2 |y| = -1 := by
  have h0 : 0 < y := by linarith
  rw [abs_of_pos h0]
  refine le_antisymm ?_ ?_
  · have : Int.log 2 y < 0 := by rw [← Int.lt_zpow_iff_log_lt (by norm_num) h0]; simpa using h2
    omega
  · rw [← Int.zpow_le_iff_le_log (by norm_num) h0]; norm_num; linarith

theorem lastPlace_half (h : F.Ok) {y : ℝ} (h1 : 1 / 2 ≤ y) (h2 : y < 1) : F.lastPlace y = -1 - F.mant ∨ F.bias = 1 := by
  have := bias_pos h
  unfold lastPlace
  rw [log_half h1 h2]
  omega

/-- The reduced argument is never pushed past one half. -/
theorem rnd_half (h : F.Wide) {y : ℝ} (h1 : 1 / 2 ≤ y) (h2 : y ≤ 1 / 2 + F.eps / 2) : F.rnd y = 1 / 2 := by
  have he := eps_le h
  have hlt : y < 1 := by linarith
  have hl : F.lastPlace y = -1 - F.mant := by
    rcases lastPlace_half h.ok h1 hlt with h3 | h3
    · exact h3
    · have := h.bias_ge; omega
  have hm : (2 : ℝ) ^ (-1 - (F.mant : ℤ)) = F.eps := by unfold eps; congr 1; ring
  have hε := eps_pos (F := F)
  have hp : (2 : ℝ) ^ F.mant * F.eps = 1 / 2 := by
    unfold eps
    rw [← zpow_natCast, ← zpow_add₀ (by norm_num)]
    rw [show (F.mant : ℤ) + (-(F.mant : ℤ) - 1) = -1 by ring]; norm_num
  unfold rnd
  rw [hl, hm]
  have hf : ⌊y / F.eps⌋ = 2 ^ F.mant := by
    rw [Int.floor_eq_iff]
    push_cast
    rw [le_div_iff₀ hε, div_lt_iff₀ hε, add_mul, hp]
    constructor <;> linarith
  have hd : y / F.eps - (2 ^ F.mant : ℝ) ≤ 1 / 2 := by
    rw [sub_le_iff_le_add, div_le_iff₀ hε, add_mul, hp]; linarith
  have hr : roundEven (y / F.eps) = 2 ^ F.mant := by
    unfold roundEven
    rw [hf]
    push_cast
    have hev : ((2 : ℤ) ^ F.mant) % 2 = 0 := by
      obtain ⟨k, hk⟩ : ∃ k, F.mant = k + 1 := ⟨F.mant - 1, by have := h.mant; omega⟩
      rw [hk, pow_succ]; omega
    rw [if_neg (not_lt.2 hd), if_pos hev]
    split_ifs <;> rfl
  rw [hr]; push_cast; exact hp

/-- Generated `round` in float arithmetic, at a nonnegative number. -/
theorem round_core (h : F.Wide) {x : ℝ} (hr : F.Repr x) (h0 : 0 ≤ x) (hx : x < 2 ^ F.mant) :
    |F.rnd (x - ⌊F.rnd (x + 1 / 2)⌋)| ≤ 1 / 2 ∧ |F.rnd (x - ⌊F.rnd (x + 1 / 2)⌋) - (x - ⌊F.rnd (x + 1 / 2)⌋)| ≤ F.eps / 2 ∧
      (1 / 2 ≤ x → F.Repr (x - ⌊F.rnd (x + 1 / 2)⌋)) ∧ 0 ≤ ⌊F.rnd (x + 1 / 2)⌋ ∧ (⌊F.rnd (x + 1 / 2)⌋ : ℝ) ≤ x + 1 / 2 + F.eps / 2 := by
  have he := eps_le h
  have hε := eps_pos (F := F)
  set s := F.rnd (x + 1 / 2) with hs
  set m : ℤ := ⌊x + 1 / 2⌋ with hm
  have hm0 : 0 ≤ m := Int.floor_nonneg.2 (by linarith)
  have hm1 : (m : ℝ) ≤ x + 1 / 2 := Int.floor_le _
  have hm2 : x + 1 / 2 < m + 1 := Int.lt_floor_add_one _
  have hmb : m + 1 ≤ 2 ^ (F.mant + 1) := by
    have h1 : (m : ℝ) < 2 ^ F.mant + 1 := by linarith
    have h2 : m < 2 ^ F.mant + 1 := by exact_mod_cast h1
    have h3 : (2 : ℤ) ≤ 2 ^ F.mant := by
      calc (2 : ℤ) = 2 ^ 1 := rfl
        _ ≤ 2 ^ F.mant := pow_le_pow_right₀ (by norm_num) (by have := h.mant; omega)
    rw [pow_succ]; linarith
  have hrm : F.Repr (m : ℤ) := repr_int h.ok (by rw [abs_of_nonneg hm0]; omega)
  have hrm1 : F.Repr ((m + 1 : ℤ) : ℝ) := repr_int h.ok (by rw [abs_of_nonneg (by omega)]; omega)
  have hs1 : (m : ℝ) ≤ s := le_rnd hrm hm1
  have hs2 : s ≤ m + 1 := by have := rnd_le hrm1 (by push_cast; linarith : x + 1 / 2 ≤ ((m + 1 : ℤ) : ℝ)); push_cast at this; exact this
  -- when the rounded sum stays below the next integer
  have stay : s < m + 1 → ⌊s⌋ = m := fun h1 => Int.floor_eq_iff.2 ⟨hs1, h1⟩
  have exact' : ⌊s⌋ = m → F.Repr (x - m) ∧ |x - m| ≤ 1 / 2 := by
    intro _
    have hab : |x - m| ≤ 1 / 2 := by rw [abs_le]; constructor <;> linarith
    refine ⟨?_, hab⟩
    rcases eq_or_lt_of_le hm0 with h1 | h1
    · rw [← h1]; simpa using hr
    · obtain ⟨k, hk, -⟩ := hr.multiple
      have hx2 : 1 / 2 ≤ x := by
        have : (1 : ℝ) ≤ m := by exact_mod_cast h1
        linarith
      have hle : F.lastPlace x ≤ 0 := by
        unfold lastPlace
        have hx0 : 0 < x := by linarith
        have h5 : Int.log 2 |x| < F.mant := by
          rw [abs_of_pos hx0, ← Int.lt_zpow_iff_log_lt (by norm_num) hx0]
          rw [zpow_natCast]; exact_mod_cast hx
        have := h.bias_ge
        omega
      obtain ⟨j, hj⟩ := Int.eq_ofNat_of_zero_le (by omega : 0 ≤ -F.lastPlace x)
      have hpow : (m : ℝ) = ((m * 2 ^ j : ℤ) : ℝ) * (2 : ℝ) ^ F.lastPlace x := by
        push_cast
        rw [mul_assoc, ← zpow_natCast, ← zpow_add₀ (by norm_num), ← hj, neg_add_cancel, zpow_zero, mul_one]
      refine repr_of_multiple (k := k - m * 2 ^ j) (e := F.lastPlace x) ?_ (lastPlace_ge x) ?_
      · calc x - m = k * (2 : ℝ) ^ F.lastPlace x - ((m * 2 ^ j : ℤ) : ℝ) * (2 : ℝ) ^ F.lastPlace x := by rw [← hk, ← hpow]
          _ = _ := by push_cast; ring
      · have := abs_lt_lastPlace (F := F) (x := x)
        rw [abs_of_nonneg h0] at this
        linarith
  have done : ⌊s⌋ = m → |F.rnd (x - ⌊s⌋)| ≤ 1 / 2 ∧ |F.rnd (x - ⌊s⌋) - (x - ⌊s⌋)| ≤ F.eps / 2 ∧ (1 / 2 ≤ x → F.Repr (x - ⌊s⌋)) ∧ 0 ≤ ⌊s⌋ ∧ (⌊s⌋ : ℝ) ≤ x + 1 / 2 + F.eps / 2 := by
    intro h1
    obtain ⟨h2, h3⟩ := exact' h1
    rw [h1, rnd_of_repr h2]
    exact ⟨h3, by simp; linarith, fun _ => h2, hm0, by linarith⟩
  rcases lt_or_eq_of_le hs2 with h1 | h1
  · exact done (stay h1)
  -- the sum was rounded up to the next integer
  rcases lt_or_ge x (1 / 2) with hx2 | hx2
  · have hm00 : m = 0 := by
      rw [hm, Int.floor_eq_iff]; push_cast; constructor <;> linarith
    rw [hm00] at h1
    push_cast at h1
    rw [zero_add] at h1
    have hl : F.lastPlace (x + 1 / 2) = -1 - F.mant := by
      rcases lastPlace_half h.ok (by linarith : 1 / 2 ≤ x + 1 / 2) (by linarith) with h3 | h3
      · exact h3
      · have := h.bias_ge; omega
    have h2 := rnd_near (F := F) (x + 1 / 2)
    rw [hl, ← hs, h1, show (2 : ℝ) ^ (-1 - (F.mant : ℤ)) = F.eps by unfold eps; congr 1; ring] at h2
    have h3 := (abs_le.1 h2).2
    have hfl : ⌊s⌋ = 1 := by rw [h1]; exact Int.floor_one
    have hneg : F.rnd (x - 1) = -(1 / 2) := by
      rw [show x - 1 = -(1 - x) by ring, rnd_neg, rnd_half h (by linarith) (by linarith)]
    rw [hfl]
    push_cast
    rw [hneg]
    refine ⟨by rw [abs_neg]; norm_num, ?_, fun h5 => by linarith, by norm_num, by linarith⟩
    rw [abs_le]; constructor <;> linarith
  · exfalso
    obtain ⟨k, hk, -⟩ := hr.multiple
    have hx0 : 0 < x := by linarith
    have hlog1 : Int.log 2 |x| < F.mant := by
      rw [abs_of_pos hx0, ← Int.lt_zpow_iff_log_lt (by norm_num) hx0]
      rw [zpow_natCast]; exact_mod_cast hx
    have hlog2 : -1 ≤ Int.log 2 |x| := by
      rw [abs_of_pos hx0, ← Int.zpow_le_iff_le_log (by norm_num) hx0]; norm_num; linarith
    have hle : F.lastPlace x ≤ -1 ∧ -1 - (F.mant : ℤ) ≤ F.lastPlace x := by
      unfold lastPlace
      have := h.bias_ge
      omega
    set B : ℝ := (2 : ℝ) ^ (F.mant + 1 + F.lastPlace x) with hB
    have hxB : x < B := by have := abs_lt_lastPlace (F := F) (x := x); rwa [abs_of_pos hx0] at this
    rcases le_or_gt (x + 1 / 2) B with h2 | h2
    · obtain ⟨j, hj⟩ := Int.eq_ofNat_of_zero_le (by omega : 0 ≤ -F.lastPlace x - 1)
      have hpow : (1 / 2 : ℝ) = ((2 ^ j : ℤ) : ℝ) * (2 : ℝ) ^ F.lastPlace x := by
        push_cast
        rw [← zpow_natCast, ← zpow_add₀ (by norm_num), ← hj]
        rw [show -F.lastPlace x - 1 + F.lastPlace x = -1 by ring]; norm_num
      have hrs : F.Repr (x + 1 / 2) := by
        refine repr_of_multiple (k := k + 2 ^ j) (e := F.lastPlace x) ?_ (lastPlace_ge x) (by rw [abs_of_pos (by linarith)]; exact h2)
        calc x + 1 / 2 = k * (2 : ℝ) ^ F.lastPlace x + ((2 ^ j : ℤ) : ℝ) * (2 : ℝ) ^ F.lastPlace x := by rw [← hk, ← hpow]
          _ = _ := by push_cast; ring
      have h3 := rnd_of_repr hrs
      rw [← hs] at h3; linarith
    · have hBr : F.Repr B := repr_zpow (by have := h.bias_ge; omega)
      have h3 := rnd_nearest (F := F) (x + 1 / 2) hBr
      rw [← hs, h1, abs_of_pos (by linarith : (0 : ℝ) < m + 1 - (x + 1 / 2)), abs_of_neg (by linarith)] at h3
      obtain ⟨j, hj⟩ := Int.eq_ofNat_of_zero_le (by omega : 0 ≤ (F.mant : ℤ) + 1 + F.lastPlace x)
      have hBi : B = ((2 ^ j : ℤ) : ℝ) := by rw [hB, hj]; push_cast; exact zpow_natCast _ _
      have hmB : (2 ^ j : ℤ) ≤ m := Int.le_floor.2 (by rw [← hBi]; exact h2.le)
      have : B ≤ m := by rw [hBi]; exact_mod_cast hmB
      linarith

theorem truncR_neg (x : ℝ) : truncR (-x) = -truncR x := by
  unfold truncR
  rcases lt_trichotomy x 0 with h | h | h
  · rw [if_pos (by linarith), if_neg (by linarith), Int.floor_neg]
  · subst h; simp
  · rw [if_neg (by linarith), if_pos h.le, Int.ceil_neg]

/-- Generated `round` in float arithmetic. -/
theorem round_any (h : F.Wide) {x : ℝ} (hr : F.Repr x) (hx : |x| < 2 ^ F.mant) : ∃ n : ℤ, truncR (F.rnd (x + if x < 0 then -(1 / 2) else 1 / 2)) = n ∧
    |F.rnd (x - n)| ≤ 1 / 2 ∧ |F.rnd (x - n) - (x - n)| ≤ F.eps / 2 ∧ (1 / 2 ≤ |x| → F.Repr (x - n)) ∧ |(n : ℝ)| ≤ |x| + 1 / 2 + F.eps / 2 := by
  rcases lt_or_ge x 0 with h0 | h0
  · obtain ⟨h1, h2, h3, h4, h5⟩ := round_core h hr.neg (by linarith) (by rwa [abs_of_neg h0] at hx)
    refine ⟨-⌊F.rnd (-x + 1 / 2)⌋, ?_, ?_⟩
    · rw [if_pos h0, show x + -(1 / 2) = -(-x + 1 / 2) by ring, rnd_neg, truncR_neg, truncR, if_pos]
      have := le_rnd (F := F) repr_zero (by linarith : (0 : ℝ) ≤ -x + 1 / 2)
      exact this
    · push_cast
      set n := ⌊F.rnd (-x + 1 / 2)⌋
      have e : x - -(n : ℝ) = -(-x - n) := by ring
      rw [e, rnd_neg, abs_neg, abs_of_neg h0]
      refine ⟨h1, ?_, fun h6 => (h3 h6).neg, ?_⟩
      · rw [show -F.rnd (-x - n) - -(-x - n) = -(F.rnd (-x - n) - (-x - n)) by ring, abs_neg]; exact h2
      · rw [abs_neg, abs_of_nonneg (by exact_mod_cast h4)]; exact h5
  · obtain ⟨h1, h2, h3, h4, h5⟩ := round_core h hr h0 (by rwa [abs_of_nonneg h0] at hx)
    refine ⟨⌊F.rnd (x + 1 / 2)⌋, ?_, h1, h2, by rw [abs_of_nonneg h0]; exact h3, ?_⟩
    · rw [if_neg (not_lt.2 h0), truncR, if_pos]
      exact le_rnd (F := F) repr_zero (by linarith : (0 : ℝ) ≤ x + 1 / 2)
    · rw [abs_of_nonneg h0, abs_of_nonneg (by exact_mod_cast h4)]; exact h5

end FloatFmt
end Verif

import Mathlib.Algebra.Order.Floor.Ring
import Mathlib.Data.Rat.Floor
import Verif.Lemmas.Dec
import Verif.Model.Round

/-! # Lemmas about rounding -/

namespace Verif
open Dec

/-- Nearest multiple of `10^-n`, ties away from zero, written with `floor`. -/
def rndAway (q : ℚ) (n : Int) : ℚ :=
  if 0 ≤ q then (⌊q * 10 ^ n + 1 / 2⌋ : ℚ) * 10 ^ (-n) else -((⌊-q * 10 ^ n + 1 / 2⌋ : ℚ) * 10 ^ (-n))

/-- The integer part of the computation. -/
theorem round_int {x : Dec} {n : Int} (hn : 0 ≤ n) (hs : n < x.scale) :
    round x n = ⟨((if 0 < x.int then x.int + 5 * tenPow (x.scale - (n + 1))
      else x.int - 5 * tenPow (x.scale - (n + 1))) : Int).tdiv (tenPow (x.scale - n)), n⟩ := by
  have h0 : ¬ (n < 0 ∨ x.scale ≤ n) := by omega
  unfold round
  simp only [if_neg h0, isPositive, decide_eq_true_eq]
  have hadd : ∀ f : Int, x + (⟨f, n + 1⟩ : Dec) = ⟨x.int + f * tenPow (x.scale - (n + 1)), x.scale⟩ := by
    intro f
    show add _ _ = _
    unfold add
    simp only
    split
    · rename_i h; rw [h]; simp [tenPow]
    · rw [if_neg (by omega)]; simp [add_comm]
  rw [hadd]
  unfold withScale
  simp only
  have e : (if 0 < x.int then x.int + 5 * tenPow (x.scale - (n + 1))
      else x.int - 5 * tenPow (x.scale - (n + 1))) =
      x.int + (if 0 < x.int then 5 else -5) * tenPow (x.scale - (n + 1)) := by
    split <;> ring
  rw [e]
  generalize x.int + (if 0 < x.int then 5 else -5) * tenPow (x.scale - (n + 1)) = m
  by_cases hm : m = 0
  · rw [if_pos hm, hm]; simp
  · rw [if_neg hm, if_neg (by omega), if_pos (by omega)]

theorem tenPow_succ {k : Int} (hk : 0 ≤ k) : tenPow (k + 1) = 10 * tenPow k := by
  obtain ⟨m, rfl⟩ := Int.eq_ofNat_of_zero_le hk
  unfold tenPow
  have : ((m : Int) + 1).toNat = m + 1 := by omega
  rw [this]; simp [pow_succ, mul_comm]

theorem val_round {x : Dec} {n : Int} (hn : 0 ≤ n) : (round x n).val = rndAway x.val n := by
  by_cases hs : x.scale ≤ n
  · -- already short enough
    have : round x n = x := by unfold round; simp [hs]
    rw [this]
    have hx : x.val * 10 ^ n = ((x.int * tenPow (n - x.scale) : Int) : ℚ) := by
      unfold val
      rw [Int.cast_mul, tenPow_cast (by omega), mul_assoc, ← zpow_add₀ (by norm_num)]
      congr 2; ring
    unfold rndAway
    have hinv : (10 : ℚ) ^ n * 10 ^ (-n) = 1 := by
      rw [← zpow_add₀ (by norm_num)]; simp
    have hfl : ∀ k : Int, ⌊(k : ℚ) + 1 / 2⌋ = k := by
      intro k; rw [Int.floor_intCast_add]; norm_num
    split
    · rw [hx, hfl, ← hx, mul_assoc, hinv, mul_one]
    · rw [neg_mul, hx, ← Int.cast_neg, hfl, Int.cast_neg, ← hx, neg_mul, neg_neg, mul_assoc, hinv, mul_one]
  · push Not at hs
    rw [round_int hn hs]
    set d := x.scale - (n + 1) with hd
    have hd0 : 0 ≤ d := by omega
    have hT : tenPow (x.scale - n) = 10 * tenPow d := by
      rw [← tenPow_succ hd0]; congr 1; omega
    have hTp := tenPow_pos d
    have hxv : x.val * 10 ^ n = (x.int : ℚ) / ((10 * tenPow d : Int) : ℚ) := by
      rw [← hT, tenPow_cast (by omega)]
      unfold val
      rw [mul_assoc, ← zpow_add₀ (by norm_num), div_eq_mul_inv, ← zpow_neg]
      congr 2; ring
    rw [hT]
    have hfl : ∀ i : Int, ⌊(i : ℚ) / ((10 * tenPow d : Int) : ℚ) + 1 / 2⌋ = (i + 5 * tenPow d) / (10 * tenPow d) := by
      intro i
      have : (i : ℚ) / ((10 * tenPow d : Int) : ℚ) + 1 / 2 = ((i + 5 * tenPow d : Int) : ℚ) / ((10 * tenPow d : Int) : ℚ) := by
        have : (tenPow d : ℚ) ≠ 0 := by exact_mod_cast hTp.ne'
        push_cast
        field_simp
        ring
      rw [this]
      have h2 := Rat.floor_intCast_div_natCast (i + 5 * tenPow d) (10 * tenPow d).toNat
      have e : (((10 * tenPow d).toNat : ℕ) : ℚ) = ((10 * tenPow d : Int) : ℚ) := by
        rw [← Int.cast_natCast, Int.toNat_of_nonneg (by positivity)]
      rw [e] at h2
      rw [h2, Int.toNat_of_nonneg (by positivity)]
    unfold rndAway
    by_cases hp : 0 < x.int
    · rw [if_pos hp, if_pos ((val_pos x).mpr hp).le, hxv, hfl]
      unfold val
      simp only
      rw [Int.tdiv_eq_ediv_of_nonneg (by positivity)]
    · rw [if_neg hp]
      have hneg : (x.int - 5 * tenPow d) = -(-x.int + 5 * tenPow d) := by ring
      rw [hneg, Int.neg_tdiv, Int.tdiv_eq_ediv_of_nonneg (by omega)]
      rcases eq_or_lt_of_le (not_lt.mp hp) with h0 | h0
      · have hz : x.val = 0 := (val_eq_zero x).mpr h0
        rw [if_pos hz.ge, hz, h0]
        unfold val
        simp only
        have h1 : (-0 + 5 * tenPow d) / (10 * tenPow d) = 0 := by
          apply Int.ediv_eq_zero_of_lt <;> omega
        have h2 : ⌊(0 : ℚ) * 10 ^ n + 1 / 2⌋ = 0 := by norm_num
        rw [h1, h2]; simp
      · rw [if_neg (not_le.mpr ((val_neg' x).mpr h0))]
        have : -x.val * 10 ^ n = ((-x.int : Int) : ℚ) / ((10 * tenPow d : Int) : ℚ) := by
          rw [neg_mul, hxv]; push_cast; ring
        rw [this, hfl]
        unfold val
        simp only
        push_cast; ring

theorem round_neg_digits {x : Dec} {n : Int} (hn : n < 0) : round x n = x := by
  unfold round; simp [hn]

theorem round_short {x : Dec} {n : Int} (hn : x.scale ≤ n) : round x n = x := by
  unfold round; simp [hn]

theorem round_scale_le {x : Dec} {n : Int} (hn : 0 ≤ n) : (round x n).scale ≤ n := by
  by_cases hs : x.scale ≤ n
  · rw [round_short hs]; exact hs
  · rw [round_int hn (by omega)]

/-- Distance moved by rounding, on rationals. -/
theorem rndAway_err (q : ℚ) (n : Int) : |rndAway q n - q| ≤ 1 / 2 * 10 ^ (-n) := by
  have hinv : (10 : ℚ) ^ n * 10 ^ (-n) = 1 := by
    rw [← zpow_add₀ (by norm_num)]; simp
  have key : ∀ p : ℚ, |(⌊p * 10 ^ n + 1 / 2⌋ : ℚ) * 10 ^ (-n) - p| ≤ 1 / 2 * 10 ^ (-n) := by
    intro p
    have h1 := Int.floor_le (p * 10 ^ n + 1 / 2)
    have h2 := Int.lt_floor_add_one (p * 10 ^ n + 1 / 2)
    have : (⌊p * 10 ^ n + 1 / 2⌋ : ℚ) * 10 ^ (-n) - p = ((⌊p * 10 ^ n + 1 / 2⌋ : ℚ) - p * 10 ^ n) * 10 ^ (-n) := by
      rw [sub_mul, mul_assoc, hinv, mul_one]
    rw [this, abs_mul, abs_of_pos (zpow_pos' (-n))]
    apply mul_le_mul_of_nonneg_right _ (zpow_pos' _).le
    rw [abs_le]; constructor <;> linarith
  unfold rndAway
  split
  · exact key q
  · rw [show -((⌊-q * 10 ^ n + 1 / 2⌋ : ℚ) * 10 ^ (-n)) - q = -((⌊-q * 10 ^ n + 1 / 2⌋ : ℚ) * 10 ^ (-n) - -q) by ring,
      abs_neg]
    exact key (-q)

theorem rndAway_neg (q : ℚ) (n : Int) : rndAway (-q) n = -rndAway q n := by
  unfold rndAway
  rcases lt_trichotomy q 0 with h | h | h
  · rw [if_pos (by linarith), if_neg (by linarith)]; simp
  · subst h; norm_num
  · rw [if_neg (by linarith), if_pos h.le]; simp

theorem rndAway_mono {p q : ℚ} (h : p ≤ q) (n : Int) : rndAway p n ≤ rndAway q n := by
  have h10 := zpow_pos' n
  have h10' := zpow_pos' (-n)
  have mono : ∀ a b : ℚ, a ≤ b → (⌊a * 10 ^ n + 1 / 2⌋ : ℚ) * 10 ^ (-n) ≤ (⌊b * 10 ^ n + 1 / 2⌋ : ℚ) * 10 ^ (-n) := by
    intro a b hab
    apply mul_le_mul_of_nonneg_right _ h10'.le
    exact_mod_cast Int.floor_le_floor (by have := mul_le_mul_of_nonneg_right hab h10.le; linarith)
  have nn : ∀ a : ℚ, 0 ≤ a → 0 ≤ (⌊a * 10 ^ n + 1 / 2⌋ : ℚ) * 10 ^ (-n) := by
    intro a ha
    apply mul_nonneg _ h10'.le
    exact_mod_cast Int.floor_nonneg.mpr (by positivity)
  unfold rndAway
  by_cases hp : 0 ≤ p
  · rw [if_pos hp, if_pos (hp.trans h)]; exact mono _ _ h
  · rw [if_neg hp]
    by_cases hq : 0 ≤ q
    · rw [if_pos hq]
      have := nn q hq; have := nn (-p) (by linarith); linarith
    · rw [if_neg hq]
      have := mono (-q) (-p) (by linarith); linarith

/-- Multiples of `10^-n` are fixed. -/
theorem rndAway_fix (k n : Int) : rndAway ((k : ℚ) * 10 ^ (-n)) n = (k : ℚ) * 10 ^ (-n) := by
  have hinv : (10 : ℚ) ^ (-n) * 10 ^ n = 1 := by
    rw [← zpow_add₀ (by norm_num)]; simp
  have hfl : ∀ k : Int, ⌊(k : ℚ) + 1 / 2⌋ = k := by
    intro k; rw [Int.floor_intCast_add]; norm_num
  unfold rndAway
  have e1 : (k : ℚ) * 10 ^ (-n) * 10 ^ n = k := by rw [mul_assoc, hinv, mul_one]
  have e2 : -((k : ℚ) * 10 ^ (-n)) * 10 ^ n = ((-k : Int) : ℚ) := by rw [neg_mul, e1]; push_cast; rfl
  rw [e1, e2, hfl, hfl]
  split
  · rfl
  · push_cast; ring

theorem rndAway_int (q : ℚ) (n : Int) : ∃ k : Int, rndAway q n = (k : ℚ) * 10 ^ (-n) := by
  unfold rndAway
  split
  · exact ⟨_, rfl⟩
  · exact ⟨-⌊-q * 10 ^ n + 1 / 2⌋, by push_cast; ring⟩

theorem round_err {x : Dec} {n : Int} (hn : 0 ≤ n) : |(round x n).val - x.val| ≤ 1 / 2 * 10 ^ (-n) := by
  rw [val_round hn]; exact rndAway_err _ _

theorem val_round_neg (x : Dec) (n : Int) : (round (-x) n).val = -(round x n).val := by
  rcases lt_or_ge n 0 with h | h
  · rw [round_neg_digits h, round_neg_digits h, val_neg]
  · rw [val_round h, val_round h, val_neg, rndAway_neg]

end Verif

import Verif.Lemmas.Round

/-!
# C01, C02: rounding to a number of fractional digits

The specification speaks only about the rational value of the argument and of the result.
-/

namespace Verif
open Dec

private theorem best_nonneg (p : ℚ) (hp : 0 ≤ p) (k : Int) :
    |p - ⌊p + 1 / 2⌋| ≤ |p - k| ∧ (|p - k| = |p - ⌊p + 1 / 2⌋| → |(k : ℚ)| ≤ |(⌊p + 1 / 2⌋ : ℚ)|) := by
  set r := ⌊p + 1 / 2⌋ with hr
  have h1 : (r : ℚ) ≤ p + 1 / 2 := Int.floor_le _
  have h2 : p + 1 / 2 < r + 1 := Int.lt_floor_add_one _
  have hr0 : 0 ≤ r := Int.floor_nonneg.mpr (by positivity)
  have hr0' : (0 : ℚ) ≤ r := by exact_mod_cast hr0
  rcases lt_trichotomy k r with h | h | h
  · have : (k : ℚ) + 1 ≤ r := by exact_mod_cast h
    constructor
    · rw [abs_of_nonneg (by linarith : 0 ≤ p - k), abs_le]; constructor <;> linarith
    · intro he
      rw [abs_of_nonneg hr0', abs_le]; constructor
      · rw [abs_of_nonneg (by linarith : 0 ≤ p - k)] at he
        have : |p - r| ≤ 1 / 2 := by rw [abs_le]; constructor <;> linarith
        linarith
      · linarith
  · subst h; simp
  · have : (r : ℚ) + 1 ≤ k := by exact_mod_cast h
    have hd : |p - r| < |p - k| := by
      rw [abs_of_nonpos (by linarith : p - k ≤ 0), abs_lt]; constructor <;> linarith
    exact ⟨hd.le, fun he => absurd he hd.ne'⟩

private theorem best (q : ℚ) (n k : Int) :
    |q - rndAway q n| ≤ |q - k * 10 ^ (-n)| ∧
      (|q - k * 10 ^ (-n)| = |q - rndAway q n| → |(k : ℚ) * 10 ^ (-n)| ≤ |rndAway q n|) := by
  have hinv : (10 : ℚ) ^ n * 10 ^ (-n) = 1 := by
    rw [← zpow_add₀ (by norm_num)]; simp
  have h10 := zpow_pos' (-n)
  have nonneg : ∀ (q : ℚ) (k : Int), 0 ≤ q → |q - rndAway q n| ≤ |q - k * 10 ^ (-n)| ∧
      (|q - k * 10 ^ (-n)| = |q - rndAway q n| → |(k : ℚ) * 10 ^ (-n)| ≤ |rndAway q n|) := by
    intro q k hq
    have hb := best_nonneg (q * 10 ^ n) (mul_nonneg hq (zpow_pos' n).le) k
    have e : ∀ z : ℚ, |q - z * 10 ^ (-n)| = |q * 10 ^ n - z| * 10 ^ (-n) := by
      intro z
      rw [← abs_of_pos h10, ← abs_mul, abs_of_pos h10, sub_mul, mul_assoc, hinv, mul_one]
    unfold rndAway
    rw [if_pos hq, e, e]
    refine ⟨mul_le_mul_of_nonneg_right hb.1 h10.le, fun h => ?_⟩
    rw [abs_mul, abs_mul]
    exact mul_le_mul_of_nonneg_right (hb.2 (mul_right_cancel₀ h10.ne' h)) (abs_nonneg _)
  rcases le_or_gt 0 q with hq | hq
  · exact nonneg q k hq
  · have := nonneg (-q) (-k) (by linarith)
    rw [rndAway_neg] at this
    push_cast at this
    rw [show -q - -rndAway q n = -(q - rndAway q n) by ring, abs_neg,
      show -q - -(k : ℚ) * 10 ^ (-n) = -(q - k * 10 ^ (-n)) by ring, abs_neg, neg_mul, abs_neg, abs_neg] at this
    exact this

/-- **C01** (`n ≥ 0`): the result has at most `n` fractional digits, no multiple of `10^-n` is closer to the
argument, and among equally close multiples the result has the largest absolute value (ties away from zero). -/
theorem C01_round_nearest_ties_away (x : Dec) (n : Int) (hn : 0 ≤ n) :
    (round x n).scale ≤ n ∧
    (∃ k : Int, (round x n).val = k * 10 ^ (-n)) ∧
    (∀ k : Int, |x.val - (round x n).val| ≤ |x.val - k * 10 ^ (-n)|) ∧
    (∀ k : Int, |x.val - k * 10 ^ (-n)| = |x.val - (round x n).val| → |(k : ℚ) * 10 ^ (-n)| ≤ |(round x n).val|) := by
  refine ⟨round_scale_le hn, ?_, ?_, ?_⟩
  · rw [val_round hn]; exact rndAway_int _ _
  · intro k; rw [val_round hn]; exact (best _ _ _).1
  · intro k; rw [val_round hn]; exact (best _ _ _).2

/-- **C01** (`n < 0`): nothing is changed, not even the representation. -/
theorem C01_round_negative_digits (x : Dec) (n : Int) (hn : n < 0) : round x n = x := round_neg_digits hn

/-- **C01**, consequence used by every error bound: rounding moves a number by at most half a unit. -/
theorem C01_round_error (x : Dec) (n : Int) (hn : 0 ≤ n) :
    |(round x n).val - x.val| ≤ 1 / 2 * 10 ^ (-n) := round_err hn

-- a tie: 1.25 to one digit is 1.3, and -1.25 is -1.3
example : round ⟨125, 2⟩ 1 = ⟨13, 1⟩ ∧ round ⟨-125, 2⟩ 1 = ⟨-13, 1⟩ ∧ round ⟨125, 2⟩ (-1) = ⟨125, 2⟩ := by decide
example : (0 : Int) ≤ 1 ∧ ¬ ((⟨125, 2⟩ : Dec).scale ≤ 1) := by decide

/-- **C02**: rounding twice to the same number of digits is rounding once (literally the same decimal). -/
theorem C02_round_idempotent (x : Dec) (n : Int) : round (round x n) n = round x n := by
  rcases lt_or_ge n 0 with h | h
  · rw [round_neg_digits h]
  · exact round_short (round_scale_le h)

/-- **C02**: rounding preserves order. -/
theorem C02_round_monotone (x y : Dec) (n : Int) (h : x.val ≤ y.val) :
    (round x n).val ≤ (round y n).val := by
  rcases lt_or_ge n 0 with hn | hn
  · rwa [round_neg_digits hn, round_neg_digits hn]
  · rw [val_round hn, val_round hn]; exact rndAway_mono h n

/-- **C02**: rounding commutes with negation. -/
theorem C02_round_odd (x : Dec) (n : Int) : (round (-x) n).val = -(round x n).val := val_round_neg x n

/-- **C02**: rounding depends only on the value, not on how it is written. -/
theorem C02_round_value_only (x y : Dec) (n : Int) (h : x.val = y.val) : (round x n).val = (round y n).val :=
  le_antisymm (C02_round_monotone x y n h.le) (C02_round_monotone y x n h.ge)

example : (⟨12, 1⟩ : Dec).val ≤ (⟨125, 2⟩ : Dec).val := by norm_num [Dec.val]
example : (⟨12, 1⟩ : Dec).val = (⟨120, 2⟩ : Dec).val := by norm_num [Dec.val]

end Verif

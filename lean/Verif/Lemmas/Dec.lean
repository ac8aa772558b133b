import Mathlib.Tactic.Ring
import Mathlib.Tactic.Linarith
import Mathlib.Tactic.Positivity
import Mathlib.Tactic.NormNum
import Mathlib.Tactic.FieldSimp
import Mathlib.Tactic.Push
import Verif.Spec.DecVal

/-! # Lemmas about the decimal operations at the level of values -/

namespace Verif
namespace Dec

theorem zpow_pos' (k : Int) : (0 : ℚ) < (10 : ℚ) ^ k := by positivity

theorem zpow_ne' (k : Int) : (10 : ℚ) ^ k ≠ 0 := (zpow_pos' k).ne'

theorem tenPow_cast {k : Int} (h : 0 ≤ k) : ((tenPow k : Int) : ℚ) = (10 : ℚ) ^ k := by
  obtain ⟨n, rfl⟩ := Int.eq_ofNat_of_zero_le h
  simp [tenPow]

theorem tenPow_pos (k : Int) : 0 < tenPow k := by unfold tenPow; positivity

/-- Rescaling an integer mantissa keeps the value. -/
theorem rescale (i s t : Int) (h : s ≤ t) :
    ((i * tenPow (t - s) : Int) : ℚ) * (10 : ℚ) ^ (-t) = (i : ℚ) * (10 : ℚ) ^ (-s) := by
  rw [Int.cast_mul, tenPow_cast (by omega), mul_assoc, ← zpow_add₀ (by norm_num)]
  congr 2; ring

@[simp] theorem val_add (a b : Dec) : (a + b).val = a.val + b.val := by
  show (add a b).val = _
  unfold add val
  split
  · rename_i h; simp only [h]; push_cast; ring
  · split
    · rename_i h1 h2
      simp only [Int.cast_add, add_mul]
      rw [rescale _ _ _ h2.le]
    · rename_i h1 h2
      simp only [Int.cast_add, add_mul]
      rw [rescale _ _ _ (by omega)]; ring

@[simp] theorem val_neg (a : Dec) : (-a).val = -a.val := by
  show (neg a).val = _
  simp [neg, val]

@[simp] theorem val_sub (a b : Dec) : (a - b).val = a.val - b.val := by
  show (sub a b).val = _
  unfold sub val
  split
  · rename_i h; simp only [h]; push_cast; ring
  · split
    · rename_i h1 h2
      simp only [Int.cast_sub, sub_mul]
      rw [rescale _ _ _ h2.le]
    · rename_i h1 h2
      simp only [Int.cast_sub, sub_mul]
      rw [rescale _ _ _ (by omega)]

@[simp] theorem val_mul (a b : Dec) : (a * b).val = a.val * b.val := by
  show (mul a b).val = _
  simp only [mul, val, Int.cast_mul, neg_add]
  rw [zpow_add₀ (by norm_num)]; ring

@[simp] theorem val_ofInt (i : Int) : (ofInt i).val = i := by simp [ofInt, val]
@[simp] theorem val_zero : zero.val = 0 := by simp [zero]
@[simp] theorem val_one : one.val = 1 := by simp [one]
@[simp] theorem val_two : two.val = 2 := by simp [two]
@[simp] theorem val_half : half.val = 1 / 2 := by norm_num [half, val]
@[simp] theorem val_halfF64 : halfF64.val = 1 / 2 := by norm_num [halfF64, val]
@[simp] theorem val_zeroF64 : zeroF64.val = 0 := by norm_num [zeroF64, val]

theorem val_eq_zero (a : Dec) : a.val = 0 ↔ a.int = 0 := by
  simp [val, zpow_ne']

theorem val_pos (a : Dec) : 0 < a.val ↔ 0 < a.int := by
  unfold val
  rw [mul_pos_iff_of_pos_right (zpow_pos' _)]; exact Int.cast_pos

theorem val_neg' (a : Dec) : a.val < 0 ↔ a.int < 0 := by
  unfold val
  rw [mul_neg_iff]
  constructor
  · rintro (⟨_, h⟩ | ⟨h, _⟩)
    · exact absurd h (not_lt.mpr (zpow_pos' _).le)
    · exact_mod_cast h
  · intro h; right; exact ⟨by exact_mod_cast h, zpow_pos' _⟩

theorem val_nonneg (a : Dec) : 0 ≤ a.val ↔ 0 ≤ a.int := by
  rw [← not_lt, val_neg', not_lt]

@[simp] theorem isZero_iff (a : Dec) : a.isZero = true ↔ a.val = 0 := by
  rw [val_eq_zero]; simp [isZero]

@[simp] theorem isNegative_iff (a : Dec) : a.isNegative = true ↔ a.val < 0 := by
  rw [val_neg']; simp [isNegative]

@[simp] theorem isPositive_iff (a : Dec) : a.isPositive = true ↔ 0 < a.val := by
  rw [val_pos]; simp [isPositive]

@[simp] theorem beq_iff (a b : Dec) : beq a b = true ↔ a.val = b.val := by
  unfold beq
  have key : ∀ i j s t : Int, s ≤ t → (i * tenPow (t - s) = j ↔
      (i : ℚ) * (10 : ℚ) ^ (-s) = (j : ℚ) * (10 : ℚ) ^ (-t)) := by
    intro i j s t h
    rw [← rescale i s t h, mul_left_inj' (zpow_ne' _), Int.cast_inj]
  split
  · rename_i h
    rw [beq_iff_eq, eq_comm, key _ _ _ _ h.le, eq_comm]; rfl
  · split
    · rename_i h
      rw [beq_iff_eq, key _ _ _ _ h.le]; rfl
    · have hs : a.scale = b.scale := by omega
      rw [beq_iff_eq]; unfold val; rw [hs, mul_left_inj' (zpow_ne' _), Int.cast_inj]

theorem beq_eq_decide (a b : Dec) : beq a b = decide (a.val = b.val) := by
  rw [Bool.eq_iff_iff]; simp

@[simp] theorem lt_iff (a b : Dec) : lt a b = true ↔ a.val < b.val := by
  unfold lt
  have hsub : (sub a b).int < 0 ↔ a.val < b.val := by
    rw [← val_neg']; show (a - b).val < 0 ↔ _; rw [val_sub, sub_neg]
  rcases lt_trichotomy a.int 0 with ha | ha | ha <;> rcases lt_trichotomy b.int 0 with hb | hb | hb
  all_goals
    have ha' := ha; have hb' := hb
    first
      | rw [← val_neg'] at ha'
      | rw [← val_pos] at ha'
      | rw [← val_eq_zero] at ha'
    first
      | rw [← val_neg'] at hb'
      | rw [← val_pos] at hb'
      | rw [← val_eq_zero] at hb'
    first
      | rw [Int.sign_eq_neg_one_of_neg ha] 
      | rw [Int.sign_eq_one_of_pos ha]
      | rw [ha, Int.sign_zero]
    first
      | rw [Int.sign_eq_neg_one_of_neg hb]
      | rw [Int.sign_eq_one_of_pos hb]
      | rw [hb, Int.sign_zero]
    simp [hsub]
    try linarith

theorem lt_eq_decide (a b : Dec) : lt a b = decide (a.val < b.val) := by
  rw [Bool.eq_iff_iff]; simp

@[simp] theorem le_iff (a b : Dec) : le a b = true ↔ a.val ≤ b.val := by
  unfold le
  rw [Bool.not_eq_true', ← Bool.not_eq_true, lt_iff, not_lt]

theorem le_eq_decide (a b : Dec) : le a b = decide (a.val ≤ b.val) := by
  rw [Bool.eq_iff_iff]; simp

@[simp] theorem val_abs (a : Dec) : (a.abs).val = |a.val| := by
  unfold abs val
  rw [abs_mul, abs_of_pos (zpow_pos' _)]
  congr 1
  simp only [Int.natCast_natAbs, Int.cast_abs]

theorem val_signum (a : Dec) : (signum a).val = if 0 < a.val then 1 else if a.val = 0 then 0 else -1 := by
  unfold signum
  simp only [val_pos, val_eq_zero]
  split
  · simp
  · split
    · simp
    · show (-one).val = _
      simp

end Dec
end Verif

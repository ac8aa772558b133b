import Verif.Spec.Ieee
import Verif.Lemmas.Float
import Mathlib.Tactic.Linarith
import Mathlib.Tactic.FieldSimp
import Mathlib.Tactic.GCongr

/-! # Rounding to the nearest float -/

namespace Verif

theorem roundEven_cases (t : ℝ) : (roundEven t = ⌊t⌋ ∧ t - ⌊t⌋ ≤ 1 / 2) ∨ (roundEven t = ⌊t⌋ + 1 ∧ 1 / 2 ≤ t - ⌊t⌋) := by
  unfold roundEven
  split_ifs with h1 h2 h3
  · exact .inl ⟨rfl, h1.le⟩
  · exact .inr ⟨rfl, h2.le⟩
  · exact .inl ⟨rfl, not_lt.1 h2⟩
  · exact .inr ⟨rfl, not_lt.1 h1⟩

theorem roundEven_near (t : ℝ) : |(roundEven t : ℝ) - t| ≤ 1 / 2 := by
  have h0 := Int.floor_le t
  have h1 := Int.lt_floor_add_one t
  rcases roundEven_cases t with ⟨h, h2⟩ | ⟨h, h2⟩ <;> rw [h, abs_le] <;> push_cast <;> constructor <;> linarith

/-- No integer is nearer. -/
theorem roundEven_nearest (t : ℝ) (k : ℤ) : |(roundEven t : ℝ) - t| ≤ |(k : ℝ) - t| := by
  have h0 := Int.floor_le t
  have h1 := Int.lt_floor_add_one t
  rcases le_or_gt k ⌊t⌋ with hk | hk
  · have hk' : (k : ℝ) ≤ ⌊t⌋ := by exact_mod_cast hk
    rw [abs_of_nonpos (by linarith : (k : ℝ) - t ≤ 0)]
    rcases roundEven_cases t with ⟨h, h2⟩ | ⟨h, h2⟩ <;> rw [h, abs_le] <;> push_cast <;> constructor <;> linarith
  · have hk' : (⌊t⌋ : ℝ) + 1 ≤ k := by exact_mod_cast hk
    rw [abs_of_pos (by linarith : 0 < (k : ℝ) - t)]
    rcases roundEven_cases t with ⟨h, h2⟩ | ⟨h, h2⟩ <;> rw [h, abs_le] <;> push_cast <;> constructor <;> linarith

theorem roundEven_neg (t : ℝ) : roundEven (-t) = -roundEven t := by
  have h0 := Int.floor_le t
  have h1 := Int.lt_floor_add_one t
  by_cases hi : (⌊t⌋ : ℝ) = t
  · have h2 : ⌊-t⌋ = -⌊t⌋ := by
      rw [Int.floor_eq_iff]; push_cast; constructor <;> linarith
    unfold roundEven
    rw [h2]; push_cast
    rw [if_pos (by linarith), if_pos (by linarith)]
  · have h0' : (⌊t⌋ : ℝ) < t := lt_of_le_of_ne h0 hi
    have h2 : ⌊-t⌋ = -⌊t⌋ - 1 := by
      rw [Int.floor_eq_iff]; push_cast; constructor <;> linarith
    unfold roundEven
    rw [h2]; push_cast
    rcases lt_trichotomy (t - ⌊t⌋) (1 / 2) with h | h | h
    · rw [if_neg (by linarith), if_pos (by linarith), if_pos h]; ring
    · rw [if_neg (by linarith : ¬ (-t - (-(⌊t⌋ : ℝ) - 1) < 1 / 2)), if_neg (by linarith : ¬ (1 / 2 < -t - (-(⌊t⌋ : ℝ) - 1))),
        if_neg (by linarith : ¬ (t - (⌊t⌋ : ℝ) < 1 / 2)), if_neg (by linarith : ¬ (1 / 2 < t - (⌊t⌋ : ℝ)))]
      split_ifs <;> omega
    · rw [if_pos (by linarith), if_neg (by linarith), if_pos h]; ring

namespace FloatFmt
variable {F : FloatFmt}

/-- The numbers that have a finite float, but for the upper limit of the exponent. -/
def Repr (F : FloatFmt) (x : ℝ) : Prop := ∃ m e : ℤ, x = m * (2 : ℝ) ^ e ∧ |m| ≤ 2 ^ (F.mant + 1) ∧ 1 - (F.bias : ℤ) - F.mant ≤ e

/-- The largest relative error of rounding. -/
noncomputable def eps (F : FloatFmt) : ℝ := (2 : ℝ) ^ (-(F.mant : ℤ) - 1)
/-- The smallest normal number. -/
noncomputable def tiny (F : FloatFmt) : ℝ := (2 : ℝ) ^ (1 - (F.bias : ℤ))

theorem eps_pos : 0 < F.eps := by unfold eps; positivity
theorem tiny_pos : 0 < F.tiny := by unfold tiny; positivity

theorem Repr.neg {x : ℝ} (h : F.Repr x) : F.Repr (-x) := by
  obtain ⟨m, e, rfl, h1, h2⟩ := h
  exact ⟨-m, e, by push_cast; ring, by rwa [abs_neg], h2⟩

theorem Repr.abs {x : ℝ} (h : F.Repr x) : F.Repr |x| := by
  rcases abs_choice x with h' | h' <;> rw [h']
  · exact h
  · exact h.neg

/-- A multiple of a possible last place that is not too large. -/
theorem repr_of_multiple {x : ℝ} {k e : ℤ} (hx : x = k * (2 : ℝ) ^ e) (he : 1 - (F.bias : ℤ) - F.mant ≤ e) (hs : |x| ≤ (2 : ℝ) ^ (F.mant + 1 + e)) : F.Repr x := by
  refine ⟨k, e, hx, ?_, he⟩
  have h2 : (0 : ℝ) < (2 : ℝ) ^ e := by positivity
  rw [hx, abs_mul, abs_of_pos h2, zpow_add₀ (by norm_num), mul_le_mul_iff_left₀ h2] at hs
  have : ((|k| : ℤ) : ℝ) ≤ ((2 ^ (F.mant + 1) : ℤ) : ℝ) := by push_cast; exact_mod_cast hs
  exact_mod_cast this

theorem repr_int (h : F.Ok) {k : ℤ} (hk : |k| ≤ 2 ^ (F.mant + 1)) : F.Repr k :=
  ⟨k, 0, by simp, hk, by have := bias_pos h; omega⟩

theorem repr_zpow {e : ℤ} (he : 1 - (F.bias : ℤ) - F.mant ≤ e) : F.Repr ((2 : ℝ) ^ e) :=
  ⟨1, e, by simp, by rw [abs_one]; exact one_le_pow₀ (by norm_num), he⟩

theorem lastPlace_ge (x : ℝ) : 1 - (F.bias : ℤ) - F.mant ≤ F.lastPlace x := by unfold lastPlace; omega

theorem abs_lt_lastPlace {x : ℝ} : |x| < (2 : ℝ) ^ (F.mant + 1 + F.lastPlace x) := by
  have h1 : |x| < (2 : ℝ) ^ (Int.log 2 |x| + 1) := Int.lt_zpow_succ_log_self (by norm_num) |x|
  refine lt_of_lt_of_le h1 (zpow_le_zpow_right₀ (by norm_num) ?_)
  unfold lastPlace; omega

/-- The error is at most half of the last place. -/
theorem rnd_near (x : ℝ) : |F.rnd x - x| ≤ (2 : ℝ) ^ F.lastPlace x / 2 := by
  have h2 : (0 : ℝ) < (2 : ℝ) ^ F.lastPlace x := by positivity
  have h := roundEven_near (x / 2 ^ F.lastPlace x)
  have e : F.rnd x - x = (roundEven (x / 2 ^ F.lastPlace x) - x / 2 ^ F.lastPlace x) * 2 ^ F.lastPlace x := by
    unfold rnd; field_simp
  rw [e, abs_mul, abs_of_pos h2]
  nlinarith

theorem rnd_repr (x : ℝ) : F.Repr (F.rnd x) := by
  refine ⟨_, _, rfl, ?_, lastPlace_ge x⟩
  have h2 : (0 : ℝ) < (2 : ℝ) ^ F.lastPlace x := by positivity
  have h := abs_le.1 (roundEven_near (x / 2 ^ F.lastPlace x))
  have h3 : |x / 2 ^ F.lastPlace x| < 2 ^ (F.mant + 1) := by
    rw [abs_div, abs_of_pos h2, div_lt_iff₀ h2]
    have := abs_lt_lastPlace (F := F) (x := x)
    rw [zpow_add₀ (by norm_num)] at this
    exact_mod_cast this
  rw [abs_lt] at h3
  set r := roundEven (x / 2 ^ F.lastPlace x)
  have a1 : ((r : ℤ) : ℝ) < ((2 ^ (F.mant + 1) + 1 : ℤ) : ℝ) := by push_cast; linarith
  have a2 : ((-(2 ^ (F.mant + 1) + 1) : ℤ) : ℝ) < ((r : ℤ) : ℝ) := by push_cast; linarith
  rw [abs_le]
  have b1 : r < 2 ^ (F.mant + 1) + 1 := by exact_mod_cast a1
  have b2 : -(2 ^ (F.mant + 1) + 1) < r := by exact_mod_cast a2
  constructor <;> omega

/-- **No float is nearer** than the rounded number. -/
theorem rnd_nearest (x : ℝ) {z : ℝ} (hz : F.Repr z) : |F.rnd x - x| ≤ |z - x| := by
  have h2 : (0 : ℝ) < (2 : ℝ) ^ F.lastPlace x := by positivity
  have e : ∀ k : ℤ, |F.rnd x - x| ≤ |k * (2 : ℝ) ^ F.lastPlace x - x| := by
    intro k
    have h := roundEven_nearest (x / 2 ^ F.lastPlace x) k
    have e1 : F.rnd x - x = (roundEven (x / 2 ^ F.lastPlace x) - x / 2 ^ F.lastPlace x) * 2 ^ F.lastPlace x := by
      unfold rnd; field_simp
    have e2 : k * (2 : ℝ) ^ F.lastPlace x - x = (k - x / 2 ^ F.lastPlace x) * 2 ^ F.lastPlace x := by field_simp
    rw [e1, e2, abs_mul, abs_mul]
    exact mul_le_mul_of_nonneg_right h (abs_nonneg _)
  obtain ⟨m, q, rfl, hm, hq⟩ := hz
  rcases le_or_gt (F.lastPlace x) q with h | h
  · have : (m : ℝ) * 2 ^ q = ((m * 2 ^ (q - F.lastPlace x).toNat : ℤ) : ℝ) * 2 ^ F.lastPlace x := by
      push_cast
      rw [mul_assoc, ← zpow_natCast, ← zpow_add₀ (by norm_num)]
      congr 2; omega
    rw [this]; exact e _
  · have hlog : F.lastPlace x = Int.log 2 |x| - F.mant := by
      have : F.lastPlace x = max (Int.log 2 |x|) (1 - F.bias) - F.mant := rfl
      rcases max_choice (Int.log 2 |x|) (1 - (F.bias : ℤ)) with hc | hc <;> rw [hc] at this <;> omega
    rcases eq_or_ne x 0 with rfl | hx
    · have : F.rnd 0 = 0 := by
        have := e 0
        simp only [Int.cast_zero, zero_mul, sub_zero, abs_zero] at this
        exact abs_nonpos_iff.1 this
      rw [this]; simp; positivity
    have hx0 : 0 < |x| := abs_pos.2 hx
    have hlow : (2 : ℝ) ^ Int.log 2 |x| ≤ |x| := Int.zpow_log_le_self (by norm_num) hx0
    have hpow : (2 : ℝ) ^ Int.log 2 |x| = ((2 ^ F.mant : ℤ) : ℝ) * 2 ^ F.lastPlace x := by
      push_cast
      rw [← zpow_natCast, ← zpow_add₀ (by norm_num)]; congr 1; omega
    have hzs : |(m : ℝ) * 2 ^ q| ≤ (2 : ℝ) ^ Int.log 2 |x| := by
      rw [abs_mul, abs_of_pos (by positivity : (0 : ℝ) < 2 ^ q)]
      have h3 : |(m : ℝ)| ≤ 2 ^ (F.mant + 1) := by
        have : ((|m| : ℤ) : ℝ) ≤ ((2 ^ (F.mant + 1) : ℤ) : ℝ) := by exact_mod_cast hm
        push_cast at this; exact this
      calc |(m : ℝ)| * 2 ^ q ≤ 2 ^ (F.mant + 1) * 2 ^ q := mul_le_mul_of_nonneg_right h3 (by positivity)
        _ = (2 : ℝ) ^ (((F.mant + 1 : ℕ) : ℤ) + q) := by rw [zpow_add₀ (by norm_num), zpow_natCast]
        _ ≤ _ := zpow_le_zpow_right₀ (by norm_num) (by push_cast; omega)
    have hfar : |x| - (2 : ℝ) ^ Int.log 2 |x| ≤ |(m : ℝ) * 2 ^ q - x| := by
      have := abs_sub_abs_le_abs_sub x ((m : ℝ) * 2 ^ q)
      rw [abs_sub_comm] at this
      linarith
    refine le_trans ?_ hfar
    rcases lt_or_gt_of_ne hx with hn | hp
    · refine (e (-2 ^ F.mant)).trans (le_of_eq ?_)
      rw [show ((-2 ^ F.mant : ℤ) : ℝ) * 2 ^ F.lastPlace x = -(2 : ℝ) ^ Int.log 2 |x| by rw [hpow]; push_cast; ring]
      rw [abs_of_neg hn] at hlow ⊢
      rw [abs_of_nonneg (by linarith)]; ring
    · refine (e (2 ^ F.mant)).trans (le_of_eq ?_)
      rw [← hpow]
      rw [abs_of_pos hp] at hlow ⊢
      rw [abs_of_nonpos (by linarith)]; ring

theorem rnd_of_repr {x : ℝ} (h : F.Repr x) : F.rnd x = x := by
  have := rnd_nearest x h
  rw [sub_self, abs_zero] at this
  exact sub_eq_zero.1 (abs_nonpos_iff.1 this)

theorem repr_zero : F.Repr 0 := ⟨0, 1 - (F.bias : ℤ) - F.mant, by simp, by simp, le_rfl⟩
@[simp] theorem rnd_zero : F.rnd 0 = 0 := rnd_of_repr repr_zero

theorem rnd_mono {x y : ℝ} (h : x ≤ y) : F.rnd x ≤ F.rnd y := by
  by_contra hc
  rw [not_le] at hc
  have h1 := rnd_nearest (F := F) x (rnd_repr y)
  have h2 := rnd_nearest (F := F) y (rnd_repr x)
  have e : x = y := by
    refine le_antisymm h (not_lt.1 fun hlt => ?_)
    rcases abs_cases (F.rnd x - x) with a | a <;> rcases abs_cases (F.rnd y - x) with b | b <;>
      rcases abs_cases (F.rnd y - y) with c | c <;> rcases abs_cases (F.rnd x - y) with d | d <;> linarith
  rw [e] at hc
  exact lt_irrefl _ hc

theorem rnd_neg (x : ℝ) : F.rnd (-x) = -F.rnd x := by
  have : F.lastPlace (-x) = F.lastPlace x := by unfold lastPlace; rw [abs_neg]
  unfold rnd
  rw [this, neg_div, roundEven_neg]; push_cast; ring

theorem rnd_le {x z : ℝ} (hz : F.Repr z) (h : x ≤ z) : F.rnd x ≤ z := by rw [← rnd_of_repr hz]; exact rnd_mono h
theorem le_rnd {x z : ℝ} (hz : F.Repr z) (h : z ≤ x) : z ≤ F.rnd x := by rw [← rnd_of_repr hz]; exact rnd_mono h
theorem abs_rnd_le {x z : ℝ} (hz : F.Repr z) (h : |x| ≤ z) : |F.rnd x| ≤ z := by
  rw [abs_le] at h ⊢
  exact ⟨le_rnd hz.neg h.1, rnd_le hz h.2⟩

theorem abs_rnd (x : ℝ) : |F.rnd x| = F.rnd |x| := by
  rcases le_total 0 x with h | h
  · rw [abs_of_nonneg h, abs_of_nonneg]; exact le_rnd repr_zero h
  · rw [abs_of_nonpos h, abs_of_nonpos, rnd_neg]; exact rnd_le repr_zero h

/-- The standard error bound. -/
theorem rnd_err (x : ℝ) : |F.rnd x - x| ≤ F.eps * (|x| + F.tiny) := by
  rcases eq_or_ne x 0 with rfl | hx
  · have := eps_pos (F := F); have := tiny_pos (F := F)
    rw [rnd_zero]; simp; positivity
  refine (rnd_near x).trans ?_
  have hh : (2 : ℝ) ^ F.lastPlace x / 2 = F.eps * (2 : ℝ) ^ max (Int.log 2 |x|) (1 - (F.bias : ℤ)) := by
    unfold eps lastPlace
    rw [← zpow_add₀ (by norm_num), div_eq_mul_inv, ← zpow_neg_one, ← zpow_add₀ (by norm_num)]
    congr 1; ring
  rw [hh]
  refine mul_le_mul_of_nonneg_left ?_ eps_pos.le
  have h1 := Int.zpow_log_le_self (b := 2) (by norm_num) (abs_pos.2 hx)
  have h2 := tiny_pos (F := F)
  rcases max_choice (Int.log 2 |x|) (1 - (F.bias : ℤ)) with hc | hc
  · rw [hc]; push_cast at h1; linarith
  · rw [hc]; show F.tiny ≤ _; linarith [abs_nonneg x]

/-- In the normal range the error is relative. -/
theorem rnd_rel {x : ℝ} (hx : F.tiny ≤ |x|) : |F.rnd x - x| ≤ F.eps * |x| := by
  have hx0 : 0 < |x| := lt_of_lt_of_le tiny_pos hx
  refine (rnd_near x).trans ?_
  have hl : 1 - (F.bias : ℤ) ≤ Int.log 2 |x| := by
    rw [← Int.zpow_le_iff_le_log (by norm_num) hx0]
    exact hx
  have hh : (2 : ℝ) ^ F.lastPlace x / 2 = F.eps * (2 : ℝ) ^ Int.log 2 |x| := by
    unfold eps lastPlace
    rw [max_eq_left hl, ← zpow_add₀ (by norm_num), div_eq_mul_inv, ← zpow_neg_one, ← zpow_add₀ (by norm_num)]
    congr 1; ring
  rw [hh]
  have h1 := Int.zpow_log_le_self (b := 2) (by norm_num) hx0
  push_cast at h1
  exact mul_le_mul_of_nonneg_left h1 eps_pos.le

/-- No overflow. -/
theorem rne_f (h : F.Ok) {x : ℝ} (hx : |x| ≤ 2 ^ F.bias) : F.rne x = .f (F.rnd x) := by
  have hr : F.Repr ((2 : ℝ) ^ F.bias) := by
    have := repr_zpow (F := F) (e := F.bias) (by have := bias_pos h; omega)
    rwa [zpow_natCast] at this
  have h1 := abs_rnd_le hr hx
  unfold rne
  rw [if_pos (lt_of_le_of_lt h1 (pow_lt_pow_right₀ (by norm_num) (by omega)))]

theorem rne_repr {x : ℝ} (h : F.Repr x) (hx : |x| < 2 ^ (F.bias + 1)) : F.rne x = .f x := by
  unfold rne; rw [rnd_of_repr h, if_pos hx]

/-! ## Floats and bit patterns -/

theorem Repr.multiple {x : ℝ} (h : F.Repr x) : ∃ k : ℤ, x = k * (2 : ℝ) ^ F.lastPlace x ∧ |k| < 2 ^ (F.mant + 1) := by
  have h2 : (0 : ℝ) < (2 : ℝ) ^ F.lastPlace x := by positivity
  refine ⟨roundEven (x / 2 ^ F.lastPlace x), (rnd_of_repr h).symm, ?_⟩
  have h1 := abs_lt_lastPlace (F := F) (x := x)
  have h3 := (rnd_of_repr h).symm
  unfold rnd at h3
  rw [zpow_add₀ (by norm_num)] at h1
  have h4 : |x| = |(roundEven (x / 2 ^ F.lastPlace x) : ℝ)| * 2 ^ F.lastPlace x := by
    conv_lhs => rw [h3]
    rw [abs_mul, abs_of_pos h2]
  rw [h4, mul_lt_mul_iff_left₀ h2] at h1
  have : ((|roundEven (x / 2 ^ F.lastPlace x)| : ℤ) : ℝ) < ((2 ^ (F.mant + 1) : ℤ) : ℝ) := by push_cast; exact_mod_cast h1
  exact_mod_cast this

theorem units_repr {n : ℕ} (hn : n < F.maxPat) (h : F.Ok) : F.Repr (F.units n * (2 : ℝ) ^ (1 - (F.bias : ℤ) - F.mant)) ∧
    (F.units n * (2 : ℝ) ^ (1 - (F.bias : ℤ) - F.mant)) < 2 ^ (F.bias + 1) := by
  have hf : n % 2 ^ F.mant < 2 ^ F.mant := Nat.mod_lt _ (by positivity)
  have hE : n / 2 ^ F.mant < 2 ^ F.ebits - 1 := (Nat.div_lt_iff_lt_mul (by positivity)).2 hn
  have hb := two_bias h
  have hb1 := bias_pos h
  unfold units
  split_ifs with h0
  · refine ⟨⟨(n % 2 ^ F.mant : ℕ), _, by push_cast; rfl, ?_, le_rfl⟩, ?_⟩
    · rw [Nat.abs_cast]; have : n % 2 ^ F.mant ≤ 2 ^ (F.mant + 1) := by rw [pow_succ]; omega
      exact_mod_cast this
    · have h1 : ((n % 2 ^ F.mant : ℕ) : ℝ) < 2 ^ F.mant := by exact_mod_cast hf
      calc ((n % 2 ^ F.mant : ℕ) : ℝ) * (2 : ℝ) ^ (1 - (F.bias : ℤ) - F.mant) ≤ 2 ^ F.mant * (2 : ℝ) ^ (1 - (F.bias : ℤ) - F.mant) :=
            mul_le_mul_of_nonneg_right h1.le (by positivity)
        _ = (2 : ℝ) ^ (1 - (F.bias : ℤ)) := by rw [← zpow_natCast, ← zpow_add₀ (by norm_num)]; congr 1; ring
        _ ≤ (2 : ℝ) ^ (0 : ℤ) := zpow_le_zpow_right₀ (by norm_num) (by omega)
        _ < _ := by rw [zpow_zero]; exact one_lt_pow₀ (by norm_num) (by omega)
  · set E := n / 2 ^ F.mant
    have hlt : ((2 ^ F.mant + n % 2 ^ F.mant : ℕ) : ℝ) < 2 ^ (F.mant + 1) := by
      have : 2 ^ F.mant + n % 2 ^ F.mant < 2 ^ (F.mant + 1) := by rw [pow_succ]; omega
      exact_mod_cast this
    have hval : (((2 ^ F.mant + n % 2 ^ F.mant) * 2 ^ (E - 1) : ℕ) : ℝ) * (2 : ℝ) ^ (1 - (F.bias : ℤ) - F.mant) =
        ((2 ^ F.mant + n % 2 ^ F.mant : ℕ) : ℝ) * (2 : ℝ) ^ (((E - 1 : ℕ) : ℤ) + (1 - (F.bias : ℤ) - F.mant)) := by
      rw [zpow_add₀ (by norm_num), zpow_natCast]; push_cast; ring
    rw [hval]
    refine ⟨⟨(2 ^ F.mant + n % 2 ^ F.mant : ℕ), _, by push_cast; rfl, ?_, by omega⟩, ?_⟩
    · rw [Nat.abs_cast]; exact_mod_cast hlt.le
    · calc ((2 ^ F.mant + n % 2 ^ F.mant : ℕ) : ℝ) * (2 : ℝ) ^ (((E - 1 : ℕ) : ℤ) + (1 - (F.bias : ℤ) - F.mant))
            < 2 ^ (F.mant + 1) * (2 : ℝ) ^ (((E - 1 : ℕ) : ℤ) + (1 - (F.bias : ℤ) - F.mant)) := mul_lt_mul_of_pos_right hlt (by positivity)
        _ = (2 : ℝ) ^ (((F.mant + 1 : ℕ) : ℤ) + (((E - 1 : ℕ) : ℤ) + (1 - (F.bias : ℤ) - F.mant))) := by
            rw [zpow_add₀ (by norm_num) ((F.mant + 1 : ℕ) : ℤ), zpow_natCast]
        _ ≤ (2 : ℝ) ^ (((F.bias + 1 : ℕ)) : ℤ) := zpow_le_zpow_right₀ (by norm_num) (by push_cast; omega)
        _ = _ := by rw [zpow_natCast]

theorem decode_repr (h : F.Ok) {n : ℕ} {z : ℝ} (hn : n < 2 ^ F.width) (hz : F.decode n = .f z) : F.Repr z ∧ |z| < 2 ^ (F.bias + 1) := by
  have h0 : ∀ k, (0 : ℝ) ≤ F.units k * (2 : ℝ) ^ (1 - (F.bias : ℤ) - F.mant) := fun k => by positivity
  rcases finite_cases h hn hz with ⟨h1, rfl⟩ | ⟨k, h1, -, rfl⟩
  · rw [abs_of_nonneg (h0 n)]; exact units_repr h1 h
  · rw [abs_neg, abs_of_nonneg (h0 k)]; exact ⟨(units_repr h1 h).1.neg, (units_repr h1 h).2⟩

theorem exists_units (h : F.Ok) {z : ℝ} (h0 : 0 ≤ z) (hz : F.Repr z) (hb : z < 2 ^ (F.bias + 1)) :
    ∃ n < F.maxPat, z = F.units n * (2 : ℝ) ^ (1 - (F.bias : ℤ) - F.mant) := by
  have hbb := two_bias h
  have hb1 := bias_pos h
  obtain ⟨k, hk, hk2⟩ := hz.multiple
  have h2 : (0 : ℝ) < (2 : ℝ) ^ F.lastPlace z := by positivity
  have hk0 : 0 ≤ k := by
    by_contra hc
    have : (k : ℝ) < 0 := by exact_mod_cast not_le.1 hc
    nlinarith
  obtain ⟨k, rfl⟩ := Int.eq_ofNat_of_zero_le hk0
  rw [abs_of_nonneg hk0] at hk2
  rw [Int.cast_natCast] at hk
  have hk3 : k < 2 ^ (F.mant + 1) := by exact_mod_cast hk2
  have hge := lastPlace_ge (F := F) z
  set d := (F.lastPlace z - (1 - (F.bias : ℤ) - F.mant)).toNat with hd
  have hlp : F.lastPlace z = d + (1 - (F.bias : ℤ) - F.mant) := by omega
  have hM : 0 < 2 ^ F.mant := by positivity
  by_cases hs : k < 2 ^ F.mant
  · have hd0 : d = 0 ∨ k = 0 := by
      by_contra hc
      rw [not_or] at hc
      have hz0 : 0 < z := by rw [hk]; have : (0 : ℝ) < k := by exact_mod_cast Nat.pos_of_ne_zero hc.2
                             push_cast; positivity
      have hlog : F.lastPlace z = Int.log 2 |z| - F.mant := by
        have : F.lastPlace z = max (Int.log 2 |z|) (1 - F.bias) - F.mant := rfl
        rcases max_choice (Int.log 2 |z|) (1 - (F.bias : ℤ)) with hc' | hc' <;> rw [hc'] at this <;> omega
      have h3 : (2 : ℝ) ^ Int.log 2 |z| ≤ |z| := Int.zpow_log_le_self (by norm_num) (abs_pos.2 hz0.ne')
      rw [abs_of_pos hz0] at h3 hlog
      have h4 : (k : ℝ) < 2 ^ F.mant := by exact_mod_cast hs
      have h5 : z < (2 : ℝ) ^ Int.log 2 z := by
        calc z = k * (2 : ℝ) ^ F.lastPlace z := hk
          _ < 2 ^ F.mant * (2 : ℝ) ^ F.lastPlace z := mul_lt_mul_of_pos_right h4 h2
          _ = _ := by rw [← zpow_natCast, ← zpow_add₀ (by norm_num)]; congr 1; omega
      linarith
    refine ⟨k, ?_, ?_⟩
    · unfold maxPat
      have : 1 ≤ 2 ^ F.ebits - 1 := by omega
      nlinarith
    · have hu : F.units k = k := by
        unfold units; rw [if_pos (Nat.div_eq_of_lt hs), Nat.mod_eq_of_lt hs]
      rw [hu]
      rcases hd0 with hd0 | hd0
      · rw [hk, hlp, hd0]; push_cast; rw [zero_add]
      · rw [hk, hd0]; simp
  · have hk4 : 2 ^ F.mant ≤ k := not_lt.1 hs
    have hkr : k - 2 ^ F.mant < 2 ^ F.mant := by rw [pow_succ] at hk3; omega
    have hdlt : d + 1 < 2 ^ F.ebits - 1 := by
      by_contra hc
      have h4 : ((2 ^ F.mant : ℕ) : ℝ) ≤ k := by exact_mod_cast hk4
      have : (2 : ℝ) ^ (F.bias + 1) ≤ z := by
        calc (2 : ℝ) ^ (F.bias + 1) = (2 : ℝ) ^ ((F.bias + 1 : ℕ) : ℤ) := (zpow_natCast _ _).symm
          _ ≤ (2 : ℝ) ^ ((F.mant : ℤ) + F.lastPlace z) := zpow_le_zpow_right₀ (by norm_num) (by rw [hlp]; push_cast; omega)
          _ = 2 ^ F.mant * (2 : ℝ) ^ F.lastPlace z := by rw [zpow_add₀ (by norm_num), zpow_natCast]
          _ ≤ k * (2 : ℝ) ^ F.lastPlace z := mul_le_mul_of_nonneg_right (by push_cast at h4; exact h4) h2.le
          _ = z := hk.symm
      linarith
    have hq : ((d + 1) * 2 ^ F.mant + (k - 2 ^ F.mant)) / 2 ^ F.mant = d + 1 := div_of _ _ hkr
    have hr : ((d + 1) * 2 ^ F.mant + (k - 2 ^ F.mant)) % 2 ^ F.mant = k - 2 ^ F.mant := frac_of _ _ hkr
    refine ⟨(d + 1) * 2 ^ F.mant + (k - 2 ^ F.mant), ?_, ?_⟩
    · unfold maxPat
      calc (d + 1) * 2 ^ F.mant + (k - 2 ^ F.mant) < (d + 1) * 2 ^ F.mant + 2 ^ F.mant := by omega
        _ = (d + 2) * 2 ^ F.mant := by ring
        _ ≤ _ := Nat.mul_le_mul_right _ (by omega)
    · unfold units
      rw [hq, hr, if_neg (by omega), Nat.add_sub_cancel, Nat.add_sub_cancel' hk4]
      push_cast
      rw [mul_assoc, ← zpow_natCast, ← zpow_add₀ (by norm_num), ← hlp]
      exact hk

/-- **The finite floats** are the representable numbers below the limit. -/
theorem repr_iff (h : F.Ok) {z : ℝ} : (F.Repr z ∧ |z| < 2 ^ (F.bias + 1)) ↔ ∃ n < 2 ^ F.width, F.decode n = .f z := by
  constructor
  · rintro ⟨h1, h2⟩
    have hmax := maxPat_le (F := F)
    have hw := two_pow_width (F := F)
    rcases le_total 0 z with h0 | h0
    · rw [abs_of_nonneg h0] at h2
      obtain ⟨n, hn, rfl⟩ := exists_units h h0 h1 h2
      exact ⟨n, by omega, decode_units h hn⟩
    · rw [abs_of_nonpos h0] at h2
      obtain ⟨n, hn, he⟩ := exists_units h (neg_nonneg.2 h0) h1.neg h2
      exact ⟨2 ^ (F.mant + F.ebits) + n, by omega, by rw [decode_neg h hn, ← he, neg_neg]⟩
  · rintro ⟨n, hn, hz⟩
    exact decode_repr h hn hz
end FloatFmt
end Verif

import Verif.Lemmas.RealCode
import Mathlib.Tactic.Linarith
import Mathlib.Tactic.FieldSimp
import Mathlib.Tactic.Positivity

/-! # Bit patterns of floats -/

namespace Verif
namespace FloatFmt

/-- Formats with at least one fraction bit and two exponent bits. -/
structure Ok (F : FloatFmt) : Prop where
  mant : 1 ≤ F.mant
  ebits : 2 ≤ F.ebits

theorem ok32 : FloatFmt.f32.Ok := ⟨by decide, by decide⟩
theorem ok64 : FloatFmt.f64.Ok := ⟨by decide, by decide⟩

variable {F : FloatFmt}

/-- The largest biased exponent of a finite number is `2 bias`. -/
theorem two_bias (h : F.Ok) : 2 * F.bias + 2 = 2 ^ F.ebits := by
  have h2 := h.ebits
  have : 2 ^ F.ebits = 2 * 2 ^ (F.ebits - 1) := by rw [← pow_succ']; congr 1; omega
  have h1 : 1 ≤ 2 ^ (F.ebits - 1) := Nat.one_le_two_pow
  unfold bias; omega

theorem bias_pos (h : F.Ok) : 1 ≤ F.bias := by
  have h2 := h.ebits
  have : 2 ^ 1 ≤ 2 ^ (F.ebits - 1) := Nat.pow_le_pow_right (by norm_num) (by omega)
  unfold bias; omega

theorem frac_of (E f : ℕ) (hf : f < 2 ^ F.mant) : (E * 2 ^ F.mant + f) % 2 ^ F.mant = f := by
  rw [Nat.add_mod, Nat.mul_mod_left, Nat.zero_add, Nat.mod_mod, Nat.mod_eq_of_lt hf]

theorem div_of (E f : ℕ) (hf : f < 2 ^ F.mant) : (E * 2 ^ F.mant + f) / 2 ^ F.mant = E := by
  rw [Nat.add_comm, Nat.add_mul_div_right _ _ (by positivity), Nat.div_eq_of_lt hf, Nat.zero_add]

theorem lt_of_exp {E f : ℕ} (hE : E < 2 ^ F.ebits) (hf : f < 2 ^ F.mant) : E * 2 ^ F.mant + f < 2 ^ (F.mant + F.ebits) := by
  calc E * 2 ^ F.mant + f < E * 2 ^ F.mant + 2 ^ F.mant := by omega
    _ = (E + 1) * 2 ^ F.mant := by ring
    _ ≤ 2 ^ F.ebits * 2 ^ F.mant := Nat.mul_le_mul_right _ hE
    _ = _ := by rw [← pow_add, Nat.add_comm]

/-- A positive normal pattern. -/
theorem decode_normal {E f : ℕ} (h0 : 0 < E) (hE : E < 2 ^ F.ebits - 1) (hf : f < 2 ^ F.mant) :
    F.decode (E * 2 ^ F.mant + f) = .f ((1 + f / 2 ^ F.mant) * (2 : ℝ) ^ ((E : ℤ) - F.bias)) := by
  have hlt := lt_of_exp (F := F) (by omega : E < 2 ^ F.ebits) hf
  unfold decode
  rw [frac_of E f hf, div_of E f hf, Nat.div_eq_of_lt hlt, Nat.mod_eq_of_lt (by omega : E < 2 ^ F.ebits)]
  simp only [if_neg (by omega : ¬ E = 2 ^ F.ebits - 1), if_neg (by omega : ¬ E = 0)]
  simp

theorem decode_subnormal (h : F.Ok) {f : ℕ} (hf : f < 2 ^ F.mant) :
    F.decode f = .f (f * (2 : ℝ) ^ (1 - (F.bias : ℤ) - F.mant)) := by
  have hlt := lt_of_exp (F := F) (E := 0) (by positivity) hf
  have h2 := two_bias h
  rw [zero_mul, zero_add] at hlt
  unfold decode
  rw [Nat.mod_eq_of_lt hf, Nat.div_eq_of_lt hf, Nat.div_eq_of_lt hlt, Nat.zero_mod]
  simp only [if_neg (by omega : ¬ 0 = 2 ^ F.ebits - 1)]
  simp

theorem log_of {q : ℝ} (h1 : 1 ≤ q) (h2 : q < 2) (e : ℤ) : Int.log 2 (q * (2 : ℝ) ^ e) = e := by
  have hpos : 0 < q * (2 : ℝ) ^ e := by positivity
  have hb : (2 : ℝ) = ((2 : ℕ) : ℝ) := by norm_num
  apply le_antisymm
  · rw [← Int.lt_add_one_iff]
    rw [← Int.lt_zpow_iff_log_lt (by norm_num) hpos, Nat.cast_ofNat, zpow_add₀ (by norm_num), zpow_one]
    have : (0 : ℝ) < 2 ^ e := by positivity
    nlinarith
  · rw [← Int.zpow_le_iff_le_log (by norm_num) hpos, Nat.cast_ofNat]
    have : (0 : ℝ) < 2 ^ e := by positivity
    nlinarith

/-- The pattern of a positive normal number. -/
theorem encode_normal {E f : ℕ} (h0 : 0 < E) (hf : f < 2 ^ F.mant) :
    F.encode ((1 + f / 2 ^ F.mant) * (2 : ℝ) ^ ((E : ℤ) - F.bias)) = E * 2 ^ F.mant + f := by
  have hm : (0 : ℝ) < 2 ^ F.mant := by positivity
  have hq1 : (1 : ℝ) ≤ 1 + f / 2 ^ F.mant := le_add_of_nonneg_right (by positivity)
  have hq2 : (1 + f / 2 ^ F.mant : ℝ) < 2 := by
    have : (f : ℝ) / 2 ^ F.mant < 1 := by rw [div_lt_one hm]; exact_mod_cast hf
    linarith
  have hz : (0 : ℝ) < (2 : ℝ) ^ ((E : ℤ) - F.bias) := by positivity
  have hpos : 0 < (1 + f / 2 ^ F.mant) * (2 : ℝ) ^ ((E : ℤ) - F.bias) := by positivity
  have hbig : ¬ (1 + f / 2 ^ F.mant) * (2 : ℝ) ^ ((E : ℤ) - F.bias) < (2 : ℝ) ^ (1 - (F.bias : ℤ)) := by
    rw [not_lt]
    calc (2 : ℝ) ^ (1 - (F.bias : ℤ)) ≤ (2 : ℝ) ^ ((E : ℤ) - F.bias) := zpow_le_zpow_right₀ (by norm_num) (by omega)
      _ ≤ _ := le_mul_of_one_le_left hz.le hq1
  unfold encode
  simp only [abs_of_pos hpos, not_lt.2 hpos.le, if_false, hbig, log_of hq1 hq2, Nat.zero_add]
  have h1 : ((E : ℤ) - F.bias + F.bias).toNat = E := by omega
  rw [h1, mul_div_assoc, div_self hz.ne', mul_one, add_sub_cancel_left, div_mul_cancel₀ _ hm.ne', Nat.floor_natCast]

/-- Multiples of the smallest positive number. -/
def units (F : FloatFmt) (n : ℕ) : ℕ :=
  if n / 2 ^ F.mant = 0 then n % 2 ^ F.mant else (2 ^ F.mant + n % 2 ^ F.mant) * 2 ^ (n / 2 ^ F.mant - 1)

/-- The patterns of non-negative finite numbers. -/
def maxPat (F : FloatFmt) : ℕ := (2 ^ F.ebits - 1) * 2 ^ F.mant

theorem decode_units (h : F.Ok) {n : ℕ} (hn : n < F.maxPat) :
    F.decode n = .f (F.units n * (2 : ℝ) ^ (1 - (F.bias : ℤ) - F.mant)) := by
  have hf : n % 2 ^ F.mant < 2 ^ F.mant := Nat.mod_lt _ (by positivity)
  have hE : n / 2 ^ F.mant < 2 ^ F.ebits - 1 := (Nat.div_lt_iff_lt_mul (by positivity)).2 hn
  have hsplit : n / 2 ^ F.mant * 2 ^ F.mant + n % 2 ^ F.mant = n := Nat.div_add_mod' _ _
  unfold units
  split_ifs with h0
  · rw [h0, zero_mul, zero_add] at hsplit
    rw [← decode_subnormal h hf, hsplit]
  · conv_lhs => rw [← hsplit]
    rw [decode_normal (Nat.pos_of_ne_zero h0) hE hf]
    congr 1
    obtain ⟨k, hk⟩ : ∃ k, n / 2 ^ F.mant = k + 1 := ⟨_, (Nat.succ_pred_eq_of_pos (Nat.pos_of_ne_zero h0)).symm⟩
    rw [hk]
    simp only [Nat.add_sub_cancel]
    rw [show ((k + 1 : ℕ) : ℤ) - F.bias = k + F.mant + (1 - (F.bias : ℤ) - F.mant) by push_cast; ring,
      zpow_add₀ (by norm_num), zpow_add₀ (by norm_num), zpow_natCast, zpow_natCast]
    push_cast
    field_simp

theorem units_lt_succ (n : ℕ) : F.units n < F.units (n + 1) := by
  have hM : 0 < 2 ^ F.mant := by positivity
  have hf : n % 2 ^ F.mant < 2 ^ F.mant := Nat.mod_lt _ hM
  have hsplit : n / 2 ^ F.mant * 2 ^ F.mant + n % 2 ^ F.mant = n := Nat.div_add_mod' _ _
  generalize n % 2 ^ F.mant = f at *
  generalize n / 2 ^ F.mant = E at *
  by_cases hc : f + 1 < 2 ^ F.mant
  · have e : n + 1 = E * 2 ^ F.mant + (f + 1) := by omega
    rw [e, ← hsplit]
    unfold units
    rw [frac_of E f hf, div_of E f hf, frac_of E _ hc, div_of E _ hc]
    split_ifs
    · omega
    · exact Nat.mul_lt_mul_of_pos_right (by omega) (by positivity)
  · have e : n + 1 = (E + 1) * 2 ^ F.mant + 0 := by rw [Nat.add_mul]; omega
    rw [e, ← hsplit]
    unfold units
    rw [frac_of E f hf, div_of E f hf, frac_of _ 0 hM, div_of _ 0 hM]
    simp only [Nat.add_sub_cancel, Nat.succ_ne_zero, if_false, Nat.add_zero]
    split_ifs with h0
    · subst h0; simpa using hf
    · calc (2 ^ F.mant + f) * 2 ^ (E - 1) < (2 ^ F.mant + 2 ^ F.mant) * 2 ^ (E - 1) := Nat.mul_lt_mul_of_pos_right (by omega) (by positivity)
        _ = 2 ^ F.mant * (2 * 2 ^ (E - 1)) := by ring
        _ = 2 ^ F.mant * 2 ^ E := by rw [← pow_succ']; congr 2; omega

theorem units_strictMono : StrictMono F.units := strictMono_nat_of_lt_succ units_lt_succ

/-- Negative patterns. -/
theorem decode_neg (h : F.Ok) {n : ℕ} (hn : n < F.maxPat) :
    F.decode (2 ^ (F.mant + F.ebits) + n) = .f (-(F.units n * (2 : ℝ) ^ (1 - (F.bias : ℤ) - F.mant))) := by
  have hpos := decode_units h hn
  have hlt : n < 2 ^ (F.mant + F.ebits) := lt_of_lt_of_le hn (by
    unfold maxPat; rw [pow_add, Nat.mul_comm]; exact Nat.mul_le_mul_left _ (Nat.sub_le _ _))
  have e1 : (2 ^ (F.mant + F.ebits) + n) % 2 ^ F.mant = n % 2 ^ F.mant := by
    rw [pow_add, Nat.add_comm, Nat.add_mul_mod_self_left]
  have e2 : (2 ^ (F.mant + F.ebits) + n) / 2 ^ F.mant % 2 ^ F.ebits = n / 2 ^ F.mant % 2 ^ F.ebits := by
    rw [pow_add, Nat.add_comm, Nat.add_mul_div_left _ _ (by positivity), Nat.add_mod_right]
  have e3 : (2 ^ (F.mant + F.ebits) + n) / 2 ^ (F.mant + F.ebits) % 2 = 1 := by
    rw [Nat.add_div_left _ (by positivity), Nat.div_eq_of_lt hlt]
  unfold decode at hpos ⊢
  rw [Nat.div_eq_of_lt hlt] at hpos
  rw [e1, e2, e3]
  simp only [Nat.zero_mod, beq_self_eq_true, if_true, Nat.reduceBEq, Bool.false_eq_true, if_false, one_mul] at hpos ⊢
  split_ifs at hpos ⊢ with h1 h2 h3
  · injection hpos with hpos; rw [← hpos]; congr 1; ring
  · injection hpos with hpos; rw [← hpos]; congr 1; ring

/-- `to_bits` undoes `from_bits` on non-negative finite patterns. -/
theorem encode_units (h : F.Ok) {n : ℕ} (hn : n < F.maxPat) : F.encode (F.units n * (2 : ℝ) ^ (1 - (F.bias : ℤ) - F.mant)) = n := by
  have hf : n % 2 ^ F.mant < 2 ^ F.mant := Nat.mod_lt _ (by positivity)
  have hE : n / 2 ^ F.mant < 2 ^ F.ebits - 1 := (Nat.div_lt_iff_lt_mul (by positivity)).2 hn
  have hsplit : n / 2 ^ F.mant * 2 ^ F.mant + n % 2 ^ F.mant = n := Nat.div_add_mod' _ _
  by_cases h0 : n / 2 ^ F.mant = 0
  · have hu : F.units n = n := by
      unfold units; rw [if_pos h0]; rw [h0] at hsplit; omega
    have hn' : n < 2 ^ F.mant := by rw [h0] at hsplit; omega
    rw [hu]
    have hz : (0 : ℝ) < (2 : ℝ) ^ (1 - (F.bias : ℤ) - F.mant) := by positivity
    have hnn : (0 : ℝ) ≤ n * (2 : ℝ) ^ (1 - (F.bias : ℤ) - F.mant) := by positivity
    have hsmall : n * (2 : ℝ) ^ (1 - (F.bias : ℤ) - F.mant) < (2 : ℝ) ^ (1 - (F.bias : ℤ)) := by
      have : (2 : ℝ) ^ (1 - (F.bias : ℤ)) = 2 ^ F.mant * (2 : ℝ) ^ (1 - (F.bias : ℤ) - F.mant) := by
        rw [← zpow_natCast, ← zpow_add₀ (by norm_num)]; congr 1; ring
      rw [this]
      exact mul_lt_mul_of_pos_right (by exact_mod_cast hn') hz
    unfold encode
    simp only [abs_of_nonneg hnn, not_lt.2 hnn, if_false, hsmall, if_true, Nat.zero_add]
    rw [mul_div_assoc, div_self hz.ne', mul_one, Nat.floor_natCast]
  · have hd := decode_normal (F := F) (Nat.pos_of_ne_zero h0) hE hf
    rw [hsplit, decode_units h hn] at hd
    injection hd with hd
    rw [hd, encode_normal (Nat.pos_of_ne_zero h0) hf, hsplit]

theorem units_pos {n : ℕ} (h0 : 0 < n) : 0 < F.units n := lt_of_le_of_lt (Nat.zero_le _) (units_strictMono h0)

theorem units_zero : F.units 0 = 0 := by simp [units]

theorem encode_neg {x : ℝ} (hx : 0 < x) : F.encode (-x) = 2 ^ (F.mant + F.ebits) + F.encode x := by
  unfold encode
  simp only [abs_neg, neg_lt_zero, hx, if_true, not_lt.2 hx.le, if_false, Nat.zero_add]
  split_ifs <;> ring

theorem maxPat_le : F.maxPat ≤ 2 ^ (F.mant + F.ebits) := by
  unfold maxPat; rw [pow_add, Nat.mul_comm]; exact Nat.mul_le_mul_left _ (Nat.sub_le _ _)

theorem two_pow_width : 2 ^ F.width = 2 * 2 ^ (F.mant + F.ebits) := by unfold width; rw [pow_succ']

/-- Patterns with the largest exponent are no numbers. -/
theorem decode_special {n : ℕ} (h : n / 2 ^ F.mant % 2 ^ F.ebits = 2 ^ F.ebits - 1) (z : ℝ) : F.decode n ≠ .f z := by
  unfold decode
  simp only [h, if_true]
  split_ifs <;> simp

theorem top_exponent {n : ℕ} (h : n < 2 ^ (F.mant + F.ebits)) (h2 : ¬ n < F.maxPat) :
    n / 2 ^ F.mant % 2 ^ F.ebits = 2 ^ F.ebits - 1 := by
  have h1 : n / 2 ^ F.mant < 2 ^ F.ebits := by
    rw [Nat.div_lt_iff_lt_mul (by positivity), ← pow_add, Nat.add_comm]; exact h
  rw [Nat.mod_eq_of_lt h1]
  apply le_antisymm (by omega)
  rw [Nat.le_div_iff_mul_le (by positivity)]; exact not_lt.1 h2

/-- The finite floats: non-negative patterns and negative ones. -/
theorem finite_cases (h : F.Ok) {n : ℕ} {z : ℝ} (hn : n < 2 ^ F.width) (hz : F.decode n = .f z) :
    (n < F.maxPat ∧ z = F.units n * (2 : ℝ) ^ (1 - (F.bias : ℤ) - F.mant)) ∨
    ∃ k, k < F.maxPat ∧ n = 2 ^ (F.mant + F.ebits) + k ∧ z = -(F.units k * (2 : ℝ) ^ (1 - (F.bias : ℤ) - F.mant)) := by
  rw [two_pow_width] at hn
  by_cases hs : n < 2 ^ (F.mant + F.ebits)
  · left
    have hfin : n < F.maxPat := by
      by_contra hc
      exact decode_special (top_exponent hs hc) z hz
    rw [decode_units h hfin] at hz
    injection hz with hz
    exact ⟨hfin, hz.symm⟩
  · right
    obtain ⟨k, rfl⟩ : ∃ k, n = 2 ^ (F.mant + F.ebits) + k := ⟨n - 2 ^ (F.mant + F.ebits), by omega⟩
    have hk : k < 2 ^ (F.mant + F.ebits) := by omega
    have hfin : k < F.maxPat := by
      by_contra hc
      refine decode_special ?_ z hz
      rw [pow_add, Nat.add_comm, Nat.add_mul_div_left _ _ (by positivity), Nat.add_mod_right]
      exact top_exponent hk hc
    rw [decode_neg h hfin] at hz
    injection hz with hz
    exact ⟨k, hfin, rfl, hz.symm⟩

end FloatFmt
end Verif

import Verif.Lemmas.IeeePoly

/-!
# C83: the generated functions in IEEE 754 arithmetic

Everything that C82 states in exact arithmetic, with every operation rounded to the nearest float of the width.
-/

namespace Verif
open RExpr Dec

/-! ## The arithmetic -/

/-- **C83** Rounding returns a float of the format that is nearest among all of them. -/
theorem C83_rounding_nearest {F : FloatFmt} (hF : F.Ok) {x : ℝ} (hx : |x| ≤ 2 ^ F.bias) :
    ∃ z, F.rne x = .f z ∧ (∃ n < 2 ^ F.width, F.decode n = .f z) ∧ ∀ n < 2 ^ F.width, ∀ z', F.decode n = .f z' → |z - x| ≤ |z' - x| := by
  have hr := FloatFmt.rne_f hF hx
  refine ⟨F.rnd x, hr, (FloatFmt.repr_iff hF).1 ⟨FloatFmt.rnd_repr x, ?_⟩, fun n hn z' hz => FloatFmt.rnd_nearest x (FloatFmt.decode_repr hF hn hz).1⟩
  unfold FloatFmt.rne at hr
  split_ifs at hr with h
  exact h

/-- **C83** A float stays what it is. -/
theorem C83_rounding_float {F : FloatFmt} (hF : F.Ok) {n : ℕ} {z : ℝ} (hn : n < 2 ^ F.width) (hz : F.decode n = .f z) : F.rne z = .f z :=
  FloatFmt.rne_repr (FloatFmt.decode_repr hF hn hz).1 (FloatFmt.decode_repr hF hn hz).2

/-- `calls` runs the generated function `fn` under its name, in float arithmetic. -/
def LinkedIE (F : FloatFmt) (calls : String → List RV → RV) (g : Name → RV) (fn : RFn) : Prop :=
  ∀ args, calls fn.name args = fn.apply (ieeeInterp F calls) g args

section
variable {F : FloatFmt} {calls : String → List RV → RV} {env : Name → RV}

theorem numIE (hF : F.Wide) {s : String} {d : Dec} (h : parseDec s.toList = some d) (k : ℤ) (hk : |k| ≤ 2 ^ 20) {x : ℝ} (hx : x = k / 8) (hd : (d.val : ℝ) = x) :
    (num s).denote (ieeeInterp F calls) env = .f x := by
  rw [denoteIE_num F calls env h, hd]
  exact FloatFmt.rne_eighths hF k hx hk

theorem numIE_0 (hF : F.Wide) : (num "0.0").denote (ieeeInterp F calls) env = .f 0 :=
  numIE hF (d := ⟨0, 1⟩) rfl 0 (by norm_num) (by norm_num) (by norm_num [Dec.val])
theorem numIE_1 (hF : F.Wide) : (num "1.0").denote (ieeeInterp F calls) env = .f 1 :=
  numIE hF (d := ⟨10, 1⟩) rfl 8 (by norm_num) (by norm_num) (by norm_num [Dec.val])
theorem numIE_half (hF : F.Wide) : (num "0.5").denote (ieeeInterp F calls) env = .f (1 / 2) :=
  numIE hF (d := ⟨5, 1⟩) rfl 4 (by norm_num) (by norm_num) (by norm_num [Dec.val])
theorem numIE_quarter (hF : F.Wide) : (num "0.25").denote (ieeeInterp F calls) env = .f (1 / 4) :=
  numIE hF (d := ⟨25, 2⟩) rfl 2 (by norm_num) (by norm_num) (by norm_num [Dec.val])
theorem numIE_15 (hF : F.Wide) : (num "1.5").denote (ieeeInterp F calls) env = .f (3 / 2) :=
  numIE hF (d := ⟨15, 1⟩) rfl 12 (by norm_num) (by norm_num) (by norm_num [Dec.val])
end

/-! ## `round` -/

section
variable {F : FloatFmt} {calls : String → List RV → RV} {g : Name → RV}

/-- What is left of an argument after `round` is subtracted: at most one half, and exact but for arguments just below one half. -/
theorem round_ieee (hF : F.Wide) {x : ℝ} (hr : F.Repr x) (hx : |x| < 2 ^ F.mant) :
    ∃ n : ℤ, Gen.round.apply (ieeeInterp F calls) g [.f x] = .f n ∧ |F.rnd (x - n)| ≤ 1 / 2 ∧ |F.rnd (x - n) - (x - n)| ≤ F.eps / 2 ∧
      (1 / 2 ≤ |x| → F.Repr (x - n)) ∧ |(n : ℝ)| ≤ |x| + 1 / 2 + F.eps / 2 := by
  obtain ⟨n, hn, h1, h2, h3, h4⟩ := FloatFmt.round_any hF hr hx
  refine ⟨n, ?_, h1, h2, h3, h4⟩
  have he := FloatFmt.eps_le hF
  have hbp := (FloatFmt.bias_pow_ge hF).2
  have hm2 : (2 : ℝ) ^ 20 ≤ 2 ^ F.mant := pow_le_pow_right₀ (by norm_num) hF.mant
  have hnm : |(n : ℝ)| < 2 ^ F.mant + 1 := by
    have : F.eps / 2 ≤ 1 / 2 := by norm_num at he ⊢; linarith
    linarith
  have hnZ : |n| ≤ 2 ^ F.mant := by
    have : |n| < 2 ^ F.mant + 1 := by exact_mod_cast hnm
    omega
  have hs : |x + if x < 0 then -(1 / 2) else 1 / 2| ≤ 2 ^ F.bias := by
    have h5 : |(if x < 0 then -(1 / 2) else 1 / 2 : ℝ)| = 1 / 2 := by split_ifs <;> norm_num
    have h6 := abs_add_le x (if x < 0 then -(1 / 2) else 1 / 2)
    have h7 : (2 : ℝ) ^ (F.mant + 9) = 512 * 2 ^ F.mant := by rw [pow_add]; ring
    rw [h5] at h6
    linarith
  have hw : F.mant + 8 ≤ F.width - 1 := by unfold FloatFmt.width; have := hF.ebits; omega
  have hwp : (2 : ℤ) ^ F.mant < 2 ^ (F.width - 1) := pow_lt_pow_right₀ (by norm_num) (by omega)
  have hnb := abs_le.1 hnZ
  simp only [Gen.round, ofFty_apply, List.map, bindParams]
  simp only [denoteBlock_letU, denoteBlock_expr, denote_as, denote_paren, denote_add, denote_method, denote_v, denoteArgs_cons, denoteArgs_nil, numIE_half hF,
    ieee_cast, ieee_bin, ieee_meth, castIE_fty, envSet_one, String.reduceEq, if_true, if_false, methIE_copysign, binIE_add]
  rw [show |(1 / 2 : ℝ)| = 1 / 2 by norm_num, FloatFmt.rne_f hF.ok hs, castIE_ity, hn, clampZ_self (by omega) (by omega), castIE_fty_i]
  refine FloatFmt.rne_repr (FloatFmt.repr_int hF.ok (hnZ.trans (pow_le_pow_right₀ (by norm_num) (by omega)))) ?_
  have h7 : (2 : ℝ) ^ (F.mant + 9) = 512 * 2 ^ F.mant := by rw [pow_add]; ring
  rw [pow_succ]
  linarith

/-- **C83** Generated `round` in float arithmetic: below `2^mant` it returns an integer at a distance of one half, and of half a unit in the last
place more only for the largest float below one half. -/
theorem C83_round (hF : F.Wide) {x : ℝ} (hr : F.Repr x) (hx : |x| < 2 ^ F.mant) :
    ∃ n : ℤ, Gen.round.apply (ieeeInterp F calls) g [.f x] = .f n ∧ |x - n| ≤ 1 / 2 + F.eps / 2 ∧ (1 / 2 ≤ |x| → |x - n| ≤ 1 / 2) := by
  obtain ⟨n, hn, h1, h2, h3, -⟩ := round_ieee (calls := calls) (g := g) hF hr hx
  refine ⟨n, hn, ?_, fun h => by rw [FloatFmt.rnd_of_repr (h3 h)] at h1; exact h1⟩
  have := abs_sub_abs_le_abs_sub (x - n) (F.rnd (x - n))
  rw [abs_sub_comm (x - n) (F.rnd (x - n))] at this
  linarith

/-- **C83** The largest float below one half is rounded up to one, although zero is nearer. -/
theorem C83_round_below_half (hF : F.Wide) : Gen.round.apply (ieeeInterp F calls) g [.f (1 / 2 - F.eps / 2)] = .f 1 := by
  have hε := FloatFmt.eps_pos (F := F)
  have he := FloatFmt.eps_le hF
  have hsum : F.rnd (1 / 2 - F.eps / 2 + 1 / 2) = 1 := by
    have hl : F.lastPlace (1 - F.eps / 2) = -1 - F.mant := by
      rcases FloatFmt.lastPlace_half hF.ok (y := 1 - F.eps / 2) (by linarith) (by linarith) with h3 | h3
      · exact h3
      · have := hF.bias_ge; omega
    have hm : (2 : ℝ) ^ (-1 - (F.mant : ℤ)) = F.eps := by unfold FloatFmt.eps; congr 1; ring
    have hp : (2 : ℝ) ^ (F.mant + 1) * F.eps = 1 := by
      unfold FloatFmt.eps
      rw [← zpow_natCast, ← zpow_add₀ (by norm_num)]
      rw [show ((F.mant + 1 : ℕ) : ℤ) + (-(F.mant : ℤ) - 1) = 0 by push_cast; ring]; norm_num
    rw [show 1 / 2 - F.eps / 2 + 1 / 2 = 1 - F.eps / 2 by ring]
    unfold FloatFmt.rnd
    rw [hl, hm]
    have hq : (1 - F.eps / 2) / F.eps = 2 ^ (F.mant + 1) - 1 / 2 := by
      rw [div_eq_iff hε.ne', sub_mul, hp]; ring
    have hf : ⌊(1 - F.eps / 2) / F.eps⌋ = 2 ^ (F.mant + 1) - 1 := by
      rw [hq, Int.floor_eq_iff]; push_cast; constructor <;> linarith
    have hr : roundEven ((1 - F.eps / 2) / F.eps) = 2 ^ (F.mant + 1) := by
      unfold roundEven
      rw [hf, hq]
      push_cast
      have hodd : ((2 : ℤ) ^ (F.mant + 1) - 1) % 2 ≠ 0 := by rw [pow_succ]; omega
      rw [if_neg (by linarith), if_neg (by linarith), if_neg hodd]; ring
    rw [hr]; push_cast; exact hp
  have hone : F.rne ((1 : ℤ) : ℝ) = .f 1 := by
    have := FloatFmt.rne_eighths hF (x := 1) 8 (by norm_num) (by norm_num)
    simpa using this
  have hb := (FloatFmt.bias_pow_ge hF).1
  have hw : 8 ≤ F.width - 1 := by unfold FloatFmt.width; have := hF.ebits; omega
  have hwp : (2 : ℤ) ^ 8 ≤ 2 ^ (F.width - 1) := pow_le_pow_right₀ (by norm_num) hw
  simp only [Gen.round, ofFty_apply, List.map, bindParams]
  simp only [denoteBlock_letU, denoteBlock_expr, denote_as, denote_paren, denote_add, denote_method, denote_v, denoteArgs_cons, denoteArgs_nil, numIE_half hF,
    ieee_cast, ieee_bin, ieee_meth, castIE_fty, envSet_one, String.reduceEq, if_true, if_false, methIE_copysign, binIE_add]
  rw [if_neg (by linarith), show |(1 / 2 : ℝ)| = 1 / 2 by norm_num, FloatFmt.rne_f hF.ok (by rw [abs_of_pos (by linarith)]; norm_num at *; linarith), hsum, castIE_ity,
    show truncR 1 = 1 from by simpa using truncR_int 1, clampZ_self (by norm_num at *; omega) (by norm_num at *; omega), castIE_fty_i, hone]

/-- **C83** Past `2^mant` rounding fails: an odd integer is taken to the next even one. -/
theorem C83_round_fails (hF : F.Wide) : Gen.round.apply (ieeeInterp F calls) g [.f (2 ^ F.mant + 1)] = .f (2 ^ F.mant + 2) := by
  have hm20 : (2 : ℝ) ^ 20 ≤ 2 ^ F.mant := pow_le_pow_right₀ (by norm_num) hF.mant
  have hm20Z : (2 : ℤ) ^ 20 ≤ 2 ^ F.mant := pow_le_pow_right₀ (by norm_num) hF.mant
  have hb := (FloatFmt.bias_pow_ge hF).2
  have h7 : (2 : ℝ) ^ (F.mant + 9) = 512 * 2 ^ F.mant := by rw [pow_add]; ring
  rw [h7] at hb
  have hsum : F.rnd (2 ^ F.mant + 1 + 1 / 2) = 2 ^ F.mant + 2 := by
    have hlog : Int.log 2 |((2 : ℝ) ^ F.mant + 1 + 1 / 2)| = F.mant := by
      rw [abs_of_pos (by positivity)]
      refine le_antisymm ?_ ?_
      · have : Int.log 2 ((2 : ℝ) ^ F.mant + 1 + 1 / 2) < (F.mant : ℤ) + 1 := by
          rw [← Int.lt_zpow_iff_log_lt (by norm_num) (by positivity), zpow_add_one₀ (by norm_num), zpow_natCast]
          push_cast; norm_num at hm20; linarith
        omega
      · rw [← Int.zpow_le_iff_le_log (by norm_num) (by positivity), zpow_natCast]
        push_cast; linarith
    have hl : F.lastPlace (2 ^ F.mant + 1 + 1 / 2) = 0 := by
      unfold FloatFmt.lastPlace
      rw [hlog]; have := hF.bias_ge; omega
    unfold FloatFmt.rnd
    rw [hl]
    simp only [zpow_zero, div_one, mul_one]
    have hf : ⌊(2 : ℝ) ^ F.mant + 1 + 1 / 2⌋ = 2 ^ F.mant + 1 := by
      rw [Int.floor_eq_iff]; push_cast; constructor <;> linarith
    have hr : roundEven ((2 : ℝ) ^ F.mant + 1 + 1 / 2) = 2 ^ F.mant + 2 := by
      unfold roundEven
      rw [hf]
      push_cast
      have hodd : ((2 : ℤ) ^ F.mant + 1) % 2 ≠ 0 := by
        obtain ⟨k, hk⟩ : ∃ k, F.mant = k + 1 := ⟨F.mant - 1, by have := hF.mant; omega⟩
        rw [hk, pow_succ]; omega
      rw [if_neg (by linarith), if_neg (by linarith), if_neg hodd]; ring
    rw [hr]; push_cast; rfl
  have hw : F.mant + 2 ≤ F.width - 1 := by unfold FloatFmt.width; have := hF.ebits; omega
  have hwp : (2 : ℤ) ^ (F.mant + 2) ≤ 2 ^ (F.width - 1) := pow_le_pow_right₀ (by norm_num) hw
  rw [show (2 : ℤ) ^ (F.mant + 2) = 4 * 2 ^ F.mant by rw [pow_add]; ring] at hwp
  have htr : truncR ((2 : ℝ) ^ F.mant + 2) = 2 ^ F.mant + 2 := by have := truncR_int (2 ^ F.mant + 2); push_cast at this; exact this
  simp only [Gen.round, ofFty_apply, List.map, bindParams]
  simp only [denoteBlock_letU, denoteBlock_expr, denote_as, denote_paren, denote_add, denote_method, denote_v, denoteArgs_cons, denoteArgs_nil, numIE_half hF,
    ieee_cast, ieee_bin, ieee_meth, castIE_fty, envSet_one, String.reduceEq, if_true, if_false, methIE_copysign, binIE_add]
  rw [if_neg (not_lt.2 (by positivity)), show |(1 / 2 : ℝ)| = 1 / 2 by norm_num, FloatFmt.rne_f hF.ok (by rw [abs_of_pos (by positivity)]; norm_num at hm20; linarith), hsum, castIE_ity, htr,
    clampZ_self (by norm_num at *; linarith) (by norm_num at *; omega), castIE_fty_i]
  have hrp : F.Repr (((2 ^ F.mant + 2 : ℤ)) : ℝ) := FloatFmt.repr_int hF.ok (by
    rw [abs_of_pos (by positivity), pow_succ]; norm_num at *; linarith)
  rw [FloatFmt.rne_repr hrp (by push_cast; rw [abs_of_pos (by positivity), pow_succ]; norm_num at hm20; linarith)]
  push_cast; rfl

end
end Verif

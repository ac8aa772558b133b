import Mathlib.Algebra.Order.Floor.Ring
import Mathlib.Algebra.Order.Field.Basic
import Mathlib.Data.Nat.Cast.Order.Field
import Mathlib.Data.Nat.Cast.Field
import Verif.Lemmas.Dec

/-! # Division and normalisation of decimals at the level of values -/

namespace Verif
namespace Dec

theorem shiftUp_spec (den : Nat) : ∀ (fuel num : Nat) (s : Int), 0 < num → den ≤ num * 10 ^ fuel →
    ∃ k : Nat, shiftUp den fuel num s = (num * 10 ^ k, s + k) ∧ den ≤ num * 10 ^ k
  | 0, num, s, _, h => ⟨0, by simp [shiftUp], by simpa using h⟩
  | fuel + 1, num, s, hn, h => by
    rw [shiftUp]
    by_cases hlt : num < den
    · rw [if_pos hlt]
      obtain ⟨k, hk, hd⟩ := shiftUp_spec den fuel (num * 10) (s + 1) (by omega)
        (by rw [pow_succ] at h; calc den ≤ _ := h
              _ = _ := by ring)
      refine ⟨k + 1, ?_, ?_⟩
      · rw [hk]; ext1
        · simp only; ring
        · simp only; push_cast; ring
      · rw [pow_succ]; calc den ≤ _ := hd
          _ = _ := by ring
    · rw [if_neg hlt]
      exact ⟨0, by simp, by simp; omega⟩

/-- After the loop the quotient and ten times the remainder satisfy the division equation at the final scale. -/
theorem longDiv_spec (den : Nat) (hden : 0 < den) : ∀ (k q rem : Nat) (s : Int), rem < den * 10 →
    ∃ j : Nat, j ≤ k ∧ (longDiv den k q rem s).2.2 = s + j ∧ (longDiv den k q rem s).2.1 < den * 10 ∧
      ((longDiv den k q rem s).1 * den * 10 + (longDiv den k q rem s).2.1 = (q * den * 10 + rem) * 10 ^ j) ∧
      ((longDiv den k q rem s).2.1 = 0 ∨ j = k)
  | 0, q, rem, s, h => ⟨0, le_refl _, by simp [longDiv], by simpa [longDiv] using h, by simp [longDiv], .inr rfl⟩
  | k + 1, q, rem, s, h => by
    by_cases h0 : rem = 0
    · exact ⟨0, by omega, by simp [longDiv, h0], by simp [longDiv, h0]; omega, by simp [longDiv, h0],
        .inl (by simp [longDiv, h0])⟩
    · have hl : longDiv den (k + 1) q rem s = longDiv den k (q * 10 + rem / den) (rem % den * 10) (s + 1) := by
        rw [longDiv, if_neg h0]
      have hmod : rem % den < den := Nat.mod_lt _ hden
      obtain ⟨j, hj, h1, h2, h3, h4⟩ := longDiv_spec den hden k (q * 10 + rem / den) (rem % den * 10) (s + 1) (by omega)
      refine ⟨j + 1, by omega, ?_, ?_, ?_, ?_⟩
      · rw [hl, h1]; push_cast; ring
      · rw [hl]; exact h2
      · rw [hl, h3]
        have hd := Nat.div_add_mod rem den
        have : (q * 10 + rem / den) * den * 10 + rem % den * 10 = (q * den * 10 + rem) * 10 := by
          calc (q * 10 + rem / den) * den * 10 + rem % den * 10
              = (q * den * 10 + (den * (rem / den) + rem % den)) * 10 := by ring
            _ = _ := by rw [hd]
        rw [this, pow_succ]; ring
      · rw [hl]
        rcases h4 with h4 | h4
        · exact .inl h4
        · exact .inr (by omega)

theorem log2_fuel (den : Nat) (num : Nat) (hn : 0 < num) : den ≤ num * 10 ^ (den.log2 + 1) := by
  have h1 : den < 2 ^ (den.log2 + 1) := Nat.lt_log2_self
  have h2 : 2 ^ (den.log2 + 1) ≤ 10 ^ (den.log2 + 1) := Nat.pow_le_pow_left (by norm_num) _
  nlinarith [Nat.pos_of_ne_zero (by positivity : (10 ^ (den.log2 + 1) : Nat) ≠ 0)]

/-- Long division keeps `maxPrec` significant digits: relative error at most half a unit in the last of them. -/
theorem implDivPos_err (num den : Nat) (scale : Int) (P : Nat) (hnum : 0 < num) (hden : 0 < den) :
    |(implDivPos num den scale P).val - (num : ℚ) / den * 10 ^ (-scale)| ≤
      1 / 2 * 10 ^ (1 - (P : Int)) * ((num : ℚ) / den * 10 ^ (-scale)) ∧ 0 < (implDivPos num den scale P).int := by
  obtain ⟨k, hk, hge⟩ := shiftUp_spec den (den.log2 + 1) num scale hnum (log2_fuel den num hnum)
  have hdq : (0 : ℚ) < den := by exact_mod_cast hden
  have hnq : (0 : ℚ) < num := by exact_mod_cast hnum
  unfold implDivPos
  simp only [hk]
  set m := num * 10 ^ k with hm
  have hq0 : 0 < m / den := Nat.div_pos hge hden
  have hmq : (m : ℚ) = num * 10 ^ k := by rw [hm]; push_cast; ring
  have hexact : (num : ℚ) / den * 10 ^ (-scale) = (m : ℚ) / den * 10 ^ (-(scale + k)) := by
    rw [hmq, neg_add, zpow_add₀ (by norm_num), zpow_neg _ (k : Int), zpow_natCast]
    field_simp
  have hpos : (0 : ℚ) < (m : ℚ) / den * 10 ^ (-(scale + k)) := by
    have : (0 : ℚ) < m := by rw [hmq]; positivity
    positivity
  rw [hexact]
  by_cases hr : m % den = 0
  · rw [if_pos hr]
    have hdm := Nat.div_add_mod m den
    rw [hr, add_zero] at hdm
    have hv : (m : ℚ) / den = ((m / den : Nat) : ℚ) := by
      rw [div_eq_iff hdq.ne']
      have : ((den * (m / den) : Nat) : ℚ) = (m : ℚ) := by rw [hdm]
      rw [← this]; push_cast; ring
    refine ⟨?_, show (0 : Int) < ((m / den : Nat) : Int) by exact_mod_cast hq0⟩
    have : (⟨((m / den : Nat) : Int), scale + k⟩ : Dec).val = (m : ℚ) / den * 10 ^ (-(scale + k)) := by
      rw [hv, val, Int.cast_natCast]
    rw [this, sub_self, abs_zero]
    positivity
  · rw [if_neg hr]
    set K := P - (Nat.log 10 (m / den) + 1) with hK
    have hmod : m % den < den := Nat.mod_lt _ hden
    obtain ⟨j, hj, h1, h2, h3, h4⟩ := longDiv_spec den hden K (m / den) (m % den * 10) (scale + k) (by omega)
    set st := longDiv den K (m / den) (m % den * 10) (scale + k) with hst
    have hdm := Nat.div_add_mod m den
    have h3' : st.1 * den * 10 + st.2.1 = m * 10 * 10 ^ j := by
      rw [h3]; congr 1
      calc m / den * den * 10 + m % den * 10 = (den * (m / den) + m % den) * 10 := by ring
        _ = _ := by rw [hdm]
    have hq : (st.1 : ℚ) + (st.2.1 : ℚ) / (den * 10) = (m : ℚ) / den * 10 ^ j := by
      have : ((st.1 * den * 10 + st.2.1 : Nat) : ℚ) = ((m * 10 * 10 ^ j : Nat) : ℚ) := by rw [h3']
      push_cast at this
      field_simp
      linarith
    set up : Nat := if st.2.1 = 0 then 0 else if 5 ≤ st.2.1 / den then 1 else 0 with hup
    have hfrac : |(up : ℚ) - (st.2.1 : ℚ) / (den * 10)| ≤ if st.2.1 = 0 then 0 else 1 / 2 := by
      by_cases hz : st.2.1 = 0
      · simp [hup, hz]
      · rw [if_neg hz]
        have hrq : ((st.2.1 : Nat) : ℚ) < den * 10 := by exact_mod_cast h2
        by_cases h5 : 5 ≤ st.2.1 / den
        · have hu : up = 1 := by simp [hup, hz, h5]
          have h5' : den * 5 ≤ st.2.1 := by
            calc den * 5 ≤ den * (st.2.1 / den) := Nat.mul_le_mul_left _ h5
              _ ≤ _ := Nat.mul_div_le _ _
          have h5q : (den : ℚ) * 5 ≤ st.2.1 := by exact_mod_cast h5'
          rw [hu, abs_le]
          constructor
          · have : (st.2.1 : ℚ) / (den * 10) ≤ 1 := by rw [div_le_one (by positivity)]; exact hrq.le
            push_cast; linarith
          · have : 1 / 2 ≤ (st.2.1 : ℚ) / (den * 10) := by
              rw [le_div_iff₀ (by positivity)]; linarith
            push_cast; linarith
        · have hu : up = 0 := by simp [hup, h5]
          have h5' : st.2.1 < den * 5 := by
            rw [not_le, Nat.div_lt_iff_lt_mul hden] at h5; linarith
          have h5q : (st.2.1 : ℚ) < (den : ℚ) * 5 := by exact_mod_cast h5'
          rw [hu, abs_le]
          constructor
          · have : (st.2.1 : ℚ) / (den * 10) ≤ 1 / 2 := by
              rw [div_le_iff₀ (by positivity)]; linarith
            push_cast; linarith
          · have : 0 ≤ (st.2.1 : ℚ) / (den * 10) := by positivity
            push_cast; linarith
    have hq1 : (1 : ℚ) ≤ (m : ℚ) / den := by
      rw [le_div_iff₀ hdq, one_mul]; exact_mod_cast hge
    refine ⟨?_, ?_⟩
    · have hval : (⟨((st.1 + up : Nat) : Int), st.2.2⟩ : Dec).val =
          ((st.1 : ℚ) + up) * 10 ^ (-(scale + k + j)) := by
        simp [val, h1]
      have hx : (m : ℚ) / den * 10 ^ (-(scale + k)) = ((m : ℚ) / den * 10 ^ j) * 10 ^ (-(scale + k + j)) := by
        rw [neg_add (scale + k) (j : Int), zpow_add₀ (by norm_num) (-(scale + k)), zpow_neg _ (j : Int), zpow_natCast]
        field_simp
      rw [hval, hx, ← hq, ← sub_mul, abs_mul, abs_of_pos (zpow_pos' _)]
      have e1 : (st.1 : ℚ) + up - (st.1 + st.2.1 / (den * 10)) = up - st.2.1 / (den * 10) := by ring
      rw [e1, ← mul_assoc]
      apply mul_le_mul_of_nonneg_right _ (zpow_pos' _).le
      refine le_trans hfrac ?_
      by_cases hz : st.2.1 = 0
      · rw [if_pos hz]; positivity
      · rw [if_neg hz]
        have hjK : j = K := by rcases h4 with h4 | h4; exact absurd h4 hz; exact h4
        rw [hq]
        -- the quotient has at least `P` digits
        have hlog : (10 : ℚ) ^ (Nat.log 10 (m / den)) ≤ (m : ℚ) / den := by
          have h10 : 10 ^ (Nat.log 10 (m / den)) ≤ m / den := Nat.pow_log_le_self 10 hq0.ne'
          have h11 : ((m / den : Nat) : ℚ) ≤ (m : ℚ) / den := Nat.cast_div_le
          have h12 : ((10 ^ (Nat.log 10 (m / den)) : Nat) : ℚ) ≤ ((m / den : Nat) : ℚ) := by exact_mod_cast h10
          push_cast at h12
          linarith
        have hKP : (P : Int) - 1 ≤ (Nat.log 10 (m / den) : Int) + (j : Int) := by omega
        have hz1 : (10 : ℚ) ^ ((P : Int) - 1) ≤ (m : ℚ) / den * 10 ^ j := by
          calc (10 : ℚ) ^ ((P : Int) - 1) ≤ 10 ^ ((Nat.log 10 (m / den) : Int) + (j : Int)) :=
                zpow_le_zpow_right₀ (by norm_num) hKP
            _ = 10 ^ (Nat.log 10 (m / den)) * 10 ^ j := by
                rw [zpow_add₀ (by norm_num), zpow_natCast, zpow_natCast]
            _ ≤ _ := by gcongr
        have hz2 : (10 : ℚ) ^ (1 - (P : Int)) * 10 ^ ((P : Int) - 1) = 1 := by
          rw [← zpow_add₀ (by norm_num)]; simp
        calc (1 / 2 : ℚ) = 1 / 2 * (10 ^ (1 - (P : Int)) * 10 ^ ((P : Int) - 1)) := by rw [hz2, mul_one]
          _ ≤ 1 / 2 * (10 ^ (1 - (P : Int)) * ((m : ℚ) / den * 10 ^ j)) := by gcongr
          _ = _ := by ring
    · have : 0 < st.1 := by
        by_contra hc
        have h0 : st.1 = 0 := by omega
        rw [h0] at h3'
        have : den * 10 ≤ m * 10 * 10 ^ j := by
          have : 1 ≤ 10 ^ j := Nat.one_le_pow _ _ (by norm_num)
          nlinarith
        omega
      simp only
      have : 0 < st.1 + up := by omega
      exact_mod_cast this

theorem val_implDiv_err (num den : Int) (scale : Int) (P : Nat) (hden : den ≠ 0) :
    |(implDiv num den scale P).val - (num : ℚ) / den * 10 ^ (-scale)| ≤
      1 / 2 * 10 ^ (1 - (P : Int)) * |(num : ℚ) / den * 10 ^ (-scale)| := by
  unfold implDiv
  by_cases h0 : num = 0
  · simp [h0, val]
  rw [if_neg h0]
  have hn : 0 < num.natAbs := Int.natAbs_pos.mpr h0
  have hd : 0 < den.natAbs := Int.natAbs_pos.mpr hden
  have key := (implDivPos_err num.natAbs den.natAbs scale P hn hd).1
  have hcast : ∀ z : Int, ((z.natAbs : Nat) : ℚ) = |(z : ℚ)| := by
    intro z; rw [← Int.cast_abs, Int.abs_eq_natAbs, Int.cast_natCast]
  rw [hcast, hcast] at key
  have habs : |(num : ℚ) / den * 10 ^ (-scale)| = |(num : ℚ)| / |(den : ℚ)| * 10 ^ (-scale) := by
    rw [abs_mul, abs_div, abs_of_pos (zpow_pos' _)]
  rw [habs]
  by_cases hs : (num < 0) = (den < 0)
  · rw [if_pos hs]
    have : (num : ℚ) / den = |(num : ℚ)| / |(den : ℚ)| := by
      by_cases hn0 : num < 0
      · have hd0 : den < 0 := by rw [← hs]; exact hn0
        rw [abs_of_neg (by exact_mod_cast hn0), abs_of_neg (by exact_mod_cast hd0), neg_div_neg_eq]
      · have hd0 : ¬ den < 0 := by rw [← hs]; exact hn0
        rw [abs_of_nonneg (by exact_mod_cast not_lt.mp hn0), abs_of_nonneg (by exact_mod_cast not_lt.mp hd0)]
    rw [this]; exact key
  · rw [if_neg hs]
    have : (num : ℚ) / den = -(|(num : ℚ)| / |(den : ℚ)|) := by
      by_cases hn0 : num < 0
      · have hd0 : ¬ den < 0 := by intro h; exact hs (by simp [hn0, h])
        rw [abs_of_neg (by exact_mod_cast hn0), abs_of_nonneg (by exact_mod_cast not_lt.mp hd0), neg_div, neg_neg]
      · have hd0 : den < 0 := by by_contra h; exact hs (by simp [hn0, h])
        rw [abs_of_nonneg (by exact_mod_cast not_lt.mp hn0), abs_of_neg (by exact_mod_cast hd0), div_neg, neg_neg]
    rw [this]
    show |(-implDivPos num.natAbs den.natAbs scale P).val - _| ≤ _
    rw [val_neg, neg_mul, ← abs_neg]
    have e : -(-(implDivPos num.natAbs den.natAbs scale P).val - -(|(num : ℚ)| / |(den : ℚ)| * 10 ^ (-scale))) =
      (implDivPos num.natAbs den.natAbs scale P).val - |(num : ℚ)| / |(den : ℚ)| * 10 ^ (-scale) := by ring
    rw [e]; exact key

/-- Relative error of a division: `½·10^-99`. -/
def divEps : ℚ := 1 / 2 * 10 ^ (-99 : Int)

/-- Division panics exactly on a zero divisor; otherwise the quotient is correct to 100 significant digits. -/
theorem div_spec (a b : Dec) :
    (b.val = 0 → div a b = .panic) ∧
    (b.val ≠ 0 → ∃ q, div a b = .ok q ∧ |q.val - a.val / b.val| ≤ divEps * |a.val / b.val|) := by
  constructor
  · intro h; rw [val_eq_zero] at h; simp [div, h]
  · intro h
    have hb : b.int ≠ 0 := by rwa [Ne, val_eq_zero] at h
    have heps : (0 : ℚ) ≤ divEps := by unfold divEps; positivity
    unfold div
    rw [if_neg hb]
    have hquot : a.val / b.val = (a.int : ℚ) / b.int * 10 ^ (-(a.scale - b.scale)) := by
      have hbq : (b.int : ℚ) ≠ 0 := by exact_mod_cast hb
      unfold val
      rw [show -(a.scale - b.scale) = -a.scale + b.scale by ring, zpow_add₀ (by norm_num), zpow_neg, zpow_neg]
      have := zpow_ne' b.scale
      have := zpow_ne' a.scale
      field_simp
    by_cases h1 : a.int = 0 ∨ beq b one = true
    · rw [if_pos h1]
      refine ⟨a, rfl, ?_⟩
      have : a.val = a.val / b.val := by
        rcases h1 with h1 | h1
        · rw [← val_eq_zero] at h1; simp [h1]
        · rw [beq_iff, val_one] at h1; simp [h1]
      rw [← this, sub_self, abs_zero]; positivity
    · rw [if_neg h1]
      by_cases h2 : a.int = b.int
      · rw [if_pos h2]
        refine ⟨_, rfl, ?_⟩
        have : (⟨1, a.scale - b.scale⟩ : Dec).val = a.val / b.val := by
          rw [hquot, h2, div_self (by exact_mod_cast hb)]; simp [val]
        rw [this, sub_self, abs_zero]; positivity
      · rw [if_neg h2]
        refine ⟨_, rfl, ?_⟩
        rw [hquot]
        have := val_implDiv_err a.int b.int (a.scale - b.scale) 100 hb
        simpa [divEps] using this

/-- Negating the dividend negates the quotient, digit for digit. -/
theorem div_neg_left (a b : Dec) : div (-a) b = (do let q ← div a b; pure (-q)) := by
  have hneg : ∀ x : Dec, (-x).int = -x.int ∧ (-x).scale = x.scale := fun x => ⟨rfl, rfl⟩
  unfold div
  by_cases hb : b.int = 0
  · simp [hb]
  rw [if_neg hb, if_neg hb, (hneg a).1, (hneg a).2]
  by_cases h1 : a.int = 0 ∨ beq b one = true
  · have h1' : -a.int = 0 ∨ beq b one = true := by
      rcases h1 with h | h
      · left; omega
      · right; exact h
    rw [if_pos h1, if_pos h1']; rfl
  have h1' : ¬ (-a.int = 0 ∨ beq b one = true) := by
    rintro (h | h)
    · exact h1 (.inl (by omega))
    · exact h1 (.inr h)
  rw [if_neg h1, if_neg h1']
  push Not at h1
  have hself : ∀ n : Nat, 0 < n → ∀ s P, implDivPos n n s P = ⟨1, s⟩ := by
    intro n hn s P
    have hsh : shiftUp n (n.log2 + 1) n s = (n, s) := by
      rw [shiftUp, if_neg (lt_irrefl n)]
    unfold implDivPos
    simp [hsh, Nat.mod_self, Nat.div_self hn]
  have hpos : 0 < b.int.natAbs := Int.natAbs_pos.mpr hb
  by_cases h2 : a.int = b.int
  · rw [if_pos h2]
    have h3 : ¬ (-a.int = b.int) := by omega
    rw [if_neg h3]
    simp only [Res.ok_bind, Res.pure_eq, Res.ok.injEq]
    unfold implDiv
    rw [if_neg (by omega)]
    have h4 : ¬ ((-a.int < 0) = (b.int < 0)) := by
      rw [eq_iff_iff]; omega
    rw [if_neg h4, h2, Int.natAbs_neg, hself _ hpos]
    rfl
  · rw [if_neg h2]
    by_cases h3 : -a.int = b.int
    · rw [if_pos h3]
      simp only [Res.ok_bind, Res.pure_eq, Res.ok.injEq]
      unfold implDiv
      rw [if_neg h1.1]
      have h4 : ¬ ((a.int < 0) = (b.int < 0)) := by
        rw [eq_iff_iff]; omega
      have h5 : a.int.natAbs = b.int.natAbs := by omega
      rw [if_neg h4, h5, hself _ hpos]
      rfl
    · rw [if_neg h3]
      simp only [Res.ok_bind, Res.pure_eq, Res.ok.injEq]
      unfold implDiv
      rw [if_neg h1.1, if_neg (by omega : -a.int ≠ 0), Int.natAbs_neg]
      by_cases h4 : (a.int < 0) = (b.int < 0)
      · have h5 : ¬ ((-a.int < 0) = (b.int < 0)) := by
          rw [eq_iff_iff] at h4 ⊢; omega
        rw [if_pos h4, if_neg h5]; rfl
      · have h5 : (-a.int < 0) = (b.int < 0) := by
          rw [eq_iff_iff] at h4 ⊢; omega
        rw [if_neg h4, if_pos h5]
        show _ = neg (neg _)
        simp [neg]

theorem stripZeros_val : ∀ (fuel n : Nat) (s : Int),
    ((stripZeros fuel n s).1 : ℚ) * 10 ^ (-(stripZeros fuel n s).2) = (n : ℚ) * 10 ^ (-s)
  | 0, n, s => rfl
  | fuel + 1, n, s => by
    rw [stripZeros]
    split
    · rename_i h
      rw [stripZeros_val fuel (n / 10) (s - 1)]
      have : ((n / 10 : Nat) : ℚ) = (n : ℚ) / 10 := by
        rw [Nat.cast_div (Nat.dvd_of_mod_eq_zero h.1) (by norm_num)]; norm_num
      rw [this, show -(s - 1) = -s + 1 by ring, zpow_add₀ (by norm_num)]
      norm_num
      ring
    · rfl

@[simp] theorem val_normalized (a : Dec) : a.normalized.val = a.val := by
  unfold normalized
  by_cases h : a.int = 0
  · rw [if_pos h, val_zero, eq_comm, val_eq_zero]; exact h
  · rw [if_neg h]
    have := stripZeros_val (a.int.natAbs.log2 + 1) a.int.natAbs a.scale
    simp only [val, Int.cast_mul, mul_assoc]
    rw [Int.cast_natCast, this, ← mul_assoc]
    congr 1
    rw [← Int.cast_natCast (R := ℚ), ← Int.cast_mul, Int.sign_mul_natAbs]

theorem normalized_neg (a : Dec) : (-a).normalized = -a.normalized := by
  have h1 : (-a).int = -a.int := rfl
  have h2 : (-a).scale = a.scale := rfl
  unfold normalized
  rw [h1, h2]
  by_cases h : a.int = 0
  · simp [h]; rfl
  · rw [if_neg (by omega), if_neg h, Int.natAbs_neg]
    show _ = neg _
    simp [neg]

end Dec
end Verif

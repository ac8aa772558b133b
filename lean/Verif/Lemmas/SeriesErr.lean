import Mathlib.Algebra.BigOperators.Field
import Mathlib.Algebra.Order.BigOperators.Group.Finset
import Mathlib.Data.Nat.Factorial.Basic
import Verif.Lemmas.Series

/-! # Error analysis of the series loop over `ℚ` -/

namespace Verif
namespace Bd
open Dec Finset

/-- A rounded number stays put when less than half a unit is added. -/
theorem rndAway_add_small (t q : ℚ) (m : Int) (ht : ∃ k : Int, t = k * 10 ^ (-m)) (hq : |q| < 1 / 2 * 10 ^ (-m)) :
    rndAway (t + q) m = t := by
  obtain ⟨k, rfl⟩ := ht
  obtain ⟨k', hk'⟩ := rndAway_int (k * 10 ^ (-m) + q) m
  have he := rndAway_err (k * 10 ^ (-m) + q) m
  rw [hk'] at he ⊢
  have hp := zpow_pos' (-m)
  have h1 : |((k' - k : Int) : ℚ)| * 10 ^ (-m) < 1 * 10 ^ (-m) := by
    calc |((k' - k : Int) : ℚ)| * 10 ^ (-m) = |(k' * 10 ^ (-m) - (k * 10 ^ (-m) + q)) + q| := by
          rw [← abs_of_pos hp, ← abs_mul, abs_of_pos hp]; push_cast; ring_nf
      _ ≤ |k' * 10 ^ (-m) - (k * 10 ^ (-m) + q)| + |q| := abs_add_le _ _
      _ < 1 / 2 * 10 ^ (-m) + 1 / 2 * 10 ^ (-m) := by linarith
      _ = 1 * 10 ^ (-m) := by ring
  have h2 : |((k' - k : Int) : ℚ)| < 1 := lt_of_mul_lt_mul_right h1 hp.le
  have h3 : |k' - k| < 1 := by exact_mod_cast h2
  have h4 : k' - k = 0 := Int.abs_lt_one_iff.1 h3
  have : k' = k := by omega
  rw [this]

/-- `Σ_{j<i} |x|^j`, the amplification of rounding errors in the powers. -/
def geo (x : ℚ) (i : ℕ) : ℚ := ∑ j ∈ range i, |x| ^ j

theorem geo_nonneg (x : ℚ) (i : ℕ) : 0 ≤ geo x i := Finset.sum_nonneg fun _ _ => by positivity

theorem geo_succ (x : ℚ) (i : ℕ) : geo x (i + 1) = |x| * geo x i + 1 := by
  unfold geo
  rw [Finset.sum_range_succ', Finset.mul_sum]
  simp [pow_succ, mul_comm]

/-- The closure adds, up to a relative error `ε`, the term `c i * power`, and answers `None` where `c i = 0`.
`Inv` describes the captured state. -/
def Follows {σ : Type} (f : Closure σ) (c : ℕ → ℚ) (ε : ℚ) (Inv : ℕ → σ → Prop) : Prop :=
  ∀ i s t P F, Inv i s → F.val = (Nat.factorial i : ℚ) →
    (c i = 0 → ∃ s', f s i t P F = .ok (none, s') ∧ Inv (i + 1) s') ∧
    (c i ≠ 0 → ∃ s' t', f s i t P F = .ok (some t', s') ∧ Inv (i + 1) s' ∧
      |t'.val - t.val - c i * P.val| ≤ ε * |c i * P.val|)

/-- Accumulated error of the partial sums. -/
def accErr (c : ℕ → ℚ) (ε u x : ℚ) (i : ℕ) : ℚ :=
  ∑ j ∈ range i, (|c j| * (ε * |x| ^ j + (1 + ε) * (u / 2 * geo x j)) + u / 2)

theorem power_err (x P : Dec) (m : Int) (hm : 0 ≤ m) (i : ℕ) (u : ℚ) (hu : u = 10 ^ (-m))
    (h : |P.val - x.val ^ i| ≤ u / 2 * geo x.val i) :
    |(round (P * x) m).val - x.val ^ (i + 1)| ≤ u / 2 * geo x.val (i + 1) := by
  have h1 := round_err (x := P * x) hm
  rw [val_mul] at h1
  rw [geo_succ]
  calc |(round (P * x) m).val - x.val ^ (i + 1)|
      = |((round (P * x) m).val - P.val * x.val) + (P.val - x.val ^ i) * x.val| := by ring_nf
    _ ≤ |(round (P * x) m).val - P.val * x.val| + |(P.val - x.val ^ i) * x.val| := abs_add_le _ _
    _ ≤ u / 2 + u / 2 * geo x.val i * |x.val| := by
        rw [abs_mul]
        have := mul_le_mul_of_nonneg_right h (abs_nonneg x.val)
        rw [hu] at this ⊢
        linarith
    _ = u / 2 * (|x.val| * geo x.val i + 1) := by ring

theorem loop_main {σ : Type} (x : Dec) (n : Int) (hn : 0 ≤ n) (f : Closure σ) (c : ℕ → ℚ) (ε : ℚ) (hε : 0 ≤ ε)
    (hε2 : ε ≤ 1 / 2) (Inv : ℕ → σ → Prop) (hf : Follows f c ε Inv) (u : ℚ) (hu : u = 10 ^ (-(n * 2)))
    (K : ℕ) (hK : K ≤ 30001) (hcK : c K ≠ 0)
    (hsmall : (1 + ε) * (|c K| * (|x.val| ^ K + u / 2 * geo x.val K)) < u / 2) :
    ∀ (fuel : ℕ) (s : σ) (i : ℕ) (t P F : Dec), i ≤ K → K < fuel + i → Inv i s → F.val = (Nat.factorial i : ℚ) →
      |P.val - x.val ^ i| ≤ u / 2 * geo x.val i → (∃ k : Int, t.val = k * 10 ^ (-(n * 2))) →
      |t.val - ∑ j ∈ range i, c j * x.val ^ j| ≤ accErr c ε u x.val i →
      ∃ t' N, maclaurinLoop x n f fuel s i t P F = .ok t' ∧ N ≤ K ∧ c N ≠ 0 ∧
        |t'.val - ∑ j ∈ range N, c j * x.val ^ j| ≤ accErr c ε u x.val N ∧
        |c N| * |x.val| ^ N ≤ u + |c N| * (u / 2 * geo x.val N) := by
  have hu0 : 0 < u := by rw [hu]; positivity
  intro fuel
  induction fuel with
  | zero => intro s i t P F h1 h2; omega
  | succ fuel ih =>
    intro s i t P F hi hfu hinv hF hP ht hacc
    have hP1 : |P.val| ≤ |x.val| ^ i + u / 2 * geo x.val i := by
      calc |P.val| = |x.val ^ i + (P.val - x.val ^ i)| := by ring_nf
        _ ≤ |x.val ^ i| + |P.val - x.val ^ i| := abs_add_le _ _
        _ ≤ _ := by rw [abs_pow]; linarith
    have hFs : (F * Dec.ofInt ((i : Int) + 1)).val = ((Nat.factorial (i + 1) : ℕ) : ℚ) := by
      rw [val_mul, hF, val_ofInt, Nat.factorial_succ]; push_cast; ring
    have hPs := power_err x P (n * 2) (by omega) i u hu hP
    rw [maclaurinLoop]
    by_cases hc : c i = 0
    · obtain ⟨s', hr, hinv'⟩ := (hf i s t P F hinv hF).1 hc
      rw [hr]
      simp only [Res.ok_bind]
      have hne : i ≠ K := by rintro rfl; exact hcK hc
      refine ih s' (i + 1) t _ _ (by omega) (by omega) hinv' hFs hPs ht ?_
      rw [Finset.sum_range_succ, hc, zero_mul, add_zero]
      refine hacc.trans ?_
      unfold accErr
      rw [Finset.sum_range_succ, hc]
      simp
      linarith
    · obtain ⟨s', t', hr, hinv', hterm⟩ := (hf i s t P F hinv hF).2 hc
      rw [hr]
      simp only [Res.ok_bind]
      set q := t'.val - t.val with hq
      have hqabs : |q| ≤ (1 + ε) * (|c i| * |P.val|) := by
        calc |q| = |(q - c i * P.val) + c i * P.val| := by ring_nf
          _ ≤ |q - c i * P.val| + |c i * P.val| := abs_add_le _ _
          _ ≤ ε * |c i * P.val| + |c i * P.val| := by linarith
          _ = _ := by rw [abs_mul]; ring
      have hqlow : (1 - ε) * (|c i| * |P.val|) ≤ |q| := by
        have : |c i * P.val| ≤ |q| + |q - c i * P.val| := by
          calc |c i * P.val| = |q - (q - c i * P.val)| := by ring_nf
            _ ≤ |q| + |q - c i * P.val| := abs_sub _ _
        rw [abs_mul] at *
        linarith
      have hround : (round t' (n * 2)).val = rndAway (t.val + q) (n * 2) := by
        rw [val_round (by omega), hq]; ring_nf
      have hrerr : |(round t' (n * 2)).val - (t.val + q)| ≤ u / 2 := by
        rw [hround, hu]
        have := rndAway_err (t.val + q) (n * 2)
        linarith
      by_cases hb : Dec.beq (round t' (n * 2)) t = true
      · rw [if_pos hb]
        refine ⟨t, i, rfl, hi, hc, hacc, ?_⟩
        have hb' := (beq_iff _ _).1 hb
        rw [hb'] at hrerr
        have hqu : |q| ≤ u / 2 := by
          have : t.val - (t.val + q) = -q := by ring
          rwa [this, abs_neg] at hrerr
        have h1 : |c i| * |P.val| ≤ u := by
          have h0 : 0 ≤ |c i| * |P.val| := by positivity
          nlinarith
        have h2 : |x.val| ^ i ≤ |P.val| + u / 2 * geo x.val i := by
          rw [← abs_pow]
          calc |x.val ^ i| = |P.val - (P.val - x.val ^ i)| := by ring_nf
            _ ≤ |P.val| + |P.val - x.val ^ i| := abs_sub _ _
            _ ≤ _ := by linarith
        calc |c i| * |x.val| ^ i ≤ |c i| * (|P.val| + u / 2 * geo x.val i) :=
              mul_le_mul_of_nonneg_left h2 (abs_nonneg _)
          _ ≤ u + |c i| * (u / 2 * geo x.val i) := by rw [mul_add]; linarith
      · rw [if_neg hb]
        have hne : i ≠ K := by
          rintro rfl
          apply hb
          rw [beq_iff, hround]
          refine rndAway_add_small t.val q (n * 2) ht ?_
          rw [← hu]
          have h3 : (1 + ε) * (|c i| * |P.val|) ≤ (1 + ε) * (|c i| * (|x.val| ^ i + u / 2 * geo x.val i)) := by
            gcongr
          linarith
        rw [if_neg (by omega)]
        refine ih s' (i + 1) _ _ _ (by omega) (by omega) hinv' hFs hPs ?_ ?_
        · obtain ⟨k, hk⟩ := rndAway_int (t.val + q) (n * 2)
          exact ⟨k, by rw [hround, hk]⟩
        · rw [Finset.sum_range_succ]
          have e : (round t' (n * 2)).val - (∑ j ∈ range i, c j * x.val ^ j + c i * x.val ^ i) =
              ((round t' (n * 2)).val - (t.val + q)) + ((t.val - ∑ j ∈ range i, c j * x.val ^ j) +
                ((q - c i * P.val) + c i * (P.val - x.val ^ i))) := by ring
          rw [e]
          have h5 : |c i * (P.val - x.val ^ i)| ≤ |c i| * (u / 2 * geo x.val i) := by
            rw [abs_mul]; exact mul_le_mul_of_nonneg_left hP (abs_nonneg _)
          have h6 : |q - c i * P.val| ≤ ε * (|c i| * (|x.val| ^ i + u / 2 * geo x.val i)) := by
            refine hterm.trans ?_
            rw [abs_mul]
            gcongr
          have h7 := abs_add_le ((round t' (n * 2)).val - (t.val + q)) ((t.val - ∑ j ∈ range i, c j * x.val ^ j) +
                ((q - c i * P.val) + c i * (P.val - x.val ^ i)))
          have h8 := abs_add_le (t.val - ∑ j ∈ range i, c j * x.val ^ j) ((q - c i * P.val) + c i * (P.val - x.val ^ i))
          have h9 := abs_add_le (q - c i * P.val) (c i * (P.val - x.val ^ i))
          have h10 : accErr c ε u x.val (i + 1) = accErr c ε u x.val i +
              (|c i| * (ε * |x.val| ^ i + (1 + ε) * (u / 2 * geo x.val i)) + u / 2) := by
            unfold accErr; rw [Finset.sum_range_succ]
          rw [h10]
          nlinarith

/-- Partial sums and stopping index of a series evaluation. -/
theorem maclaurin_main {σ : Type} (x : Dec) (n : ℕ) (f : Closure σ) (c : ℕ → ℚ) (ε : ℚ) (hε : 0 ≤ ε)
    (hε2 : ε ≤ 1 / 2) (Inv : ℕ → σ → Prop) (hf : Follows f c ε Inv) (s : σ) (hs : Inv 0 s) (u : ℚ)
    (hu : u = 1 / 100 ^ n) (K : ℕ) (hK : K ≤ 30001) (hcK : c K ≠ 0)
    (hsmall : (1 + ε) * (|c K| * (|x.val| ^ K + u / 2 * geo x.val K)) < u / 2) :
    ∃ d N, maclaurin x n f s = .ok d ∧ N ≤ K ∧ c N ≠ 0 ∧
        |d.val - ∑ j ∈ range N, c j * x.val ^ j| ≤ 1 / 20 / 10 ^ n + accErr c ε u x.val N ∧
        |c N| * |x.val| ^ N ≤ u + |c N| * (u / 2 * geo x.val N) := by
  have hu' : u = 10 ^ (-((n : Int) * 2)) := by
    rw [hu, zpow_neg, one_div, mul_comm, zpow_mul, zpow_natCast]; norm_num
  obtain ⟨t, N, h1, h2, h3, h4, h5⟩ := loop_main x n (by omega) f c ε hε hε2 Inv hf u hu' K hK hcK hsmall
    loopTurns s 0 Dec.zero Dec.one Dec.one (by omega) (by unfold loopTurns; omega) hs (by simp)
    (by simp [geo]) ⟨0, by simp⟩ (by simp [accErr])
  refine ⟨(round t (n + 1)).normalized, N, ?_, h2, h3, ?_, h5⟩
  · unfold maclaurin; rw [h1]; rfl
  · rw [val_normalized]
    have h6 := round_err (x := t) (n := (n : Int) + 1) (by omega)
    have h7 : (1 / 2 * 10 ^ (-((n : Int) + 1)) : ℚ) = 1 / 20 / 10 ^ n := by
      rw [zpow_neg, zpow_add₀ (by norm_num)]; norm_num; ring
    rw [h7] at h6
    have := abs_add_le ((round t (n + 1)).val - t.val) (t.val - ∑ j ∈ range N, c j * x.val ^ j)
    rw [show (round t (n + 1)).val - t.val + (t.val - ∑ j ∈ range N, c j * x.val ^ j) =
      (round t (n + 1)).val - ∑ j ∈ range N, c j * x.val ^ j by ring] at this
    linarith

end Bd
end Verif

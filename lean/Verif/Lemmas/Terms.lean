import Verif.Lemmas.SeriesReal

/-! # The terms of the individual series -/

namespace Verif
namespace Bd
open Dec Finset

theorem divEps_nonneg : 0 ≤ divEps := by norm_num [divEps]
theorem divEps_le : divEps ≤ 1 / 2 := by norm_num [divEps]

theorem div_follow (P F : Dec) (c : ℚ) (hc : c * F.val = 1) :
    ∃ q, Dec.div P F = .ok q ∧ |q.val - c * P.val| ≤ divEps * |c * P.val| := by
  have hF : F.val ≠ 0 := by rintro h; rw [h] at hc; simp at hc
  obtain ⟨q, hq, he⟩ := (div_spec P F).2 hF
  have : P.val / F.val = c * P.val := by
    rw [div_eq_iff hF]; linear_combination -P.val * hc
  rw [this] at he
  exact ⟨q, hq, he⟩

/-- Coefficients of the exponential series. -/
def expC (i : ℕ) : ℚ := 1 / (Nat.factorial i : ℚ)

/-- Coefficients of the sine series. -/
def sinC (i : ℕ) : ℚ := if i % 4 = 1 then 1 / (Nat.factorial i : ℚ) else if i % 4 = 3 then -(1 / (Nat.factorial i : ℚ)) else 0

/-- Coefficients of the cosine series. -/
def cosC (i : ℕ) : ℚ := if i % 4 = 0 then 1 / (Nat.factorial i : ℚ) else if i % 4 = 2 then -(1 / (Nat.factorial i : ℚ)) else 0

theorem fac_ne (i : ℕ) : (Nat.factorial i : ℚ) ≠ 0 := by positivity

theorem expLike_exp : ExpLike expC := fun i => Or.inr (by unfold expC; rw [abs_of_nonneg (by positivity)])

theorem expLike_sin : ExpLike sinC := by
  intro i
  unfold sinC
  split_ifs
  · right; rw [abs_of_nonneg (by positivity)]
  · right; rw [abs_neg, abs_of_nonneg (by positivity)]
  · left; rfl

theorem expLike_cos : ExpLike cosC := by
  intro i
  unfold cosC
  split_ifs
  · right; rw [abs_of_nonneg (by positivity)]
  · right; rw [abs_neg, abs_of_nonneg (by positivity)]
  · left; rfl

theorem follows_exp : Follows expTerm expC divEps (fun _ _ => True) := by
  intro i s t P F _ hF
  have hc : expC i * F.val = 1 := by rw [hF, expC]; field_simp
  refine ⟨fun h => by rw [h] at hc; simp at hc, fun _ => ?_⟩
  obtain ⟨q, hq, he⟩ := div_follow P F _ hc
  refine ⟨s, t + q, by unfold expTerm; rw [hq]; rfl, trivial, ?_⟩
  rw [val_add, add_sub_cancel_left]; exact he

theorem follows_sin : Follows sinTerm sinC divEps (fun _ _ => True) := by
  intro i s t P F _ hF
  have hc : (1 / (Nat.factorial i : ℚ)) * F.val = 1 := by rw [hF]; field_simp
  obtain ⟨q, hq, he⟩ := div_follow P F _ hc
  have hne : (1 : ℚ) / (Nat.factorial i : ℚ) ≠ 0 := by positivity
  unfold sinC sinTerm
  have h4 : i % 4 = 0 ∨ i % 4 = 1 ∨ i % 4 = 2 ∨ i % 4 = 3 := by omega
  rcases h4 with h | h | h | h
  · simp [h]
  · simp only [h, if_true]
    refine ⟨fun h0 => absurd h0 hne, fun _ => ⟨s, t + q, by rw [hq]; rfl, trivial, ?_⟩⟩
    rw [val_add, add_sub_cancel_left]; exact he
  · simp [h]
  · simp only [h, if_true, OfNat.ofNat_ne_one, if_false]
    refine ⟨fun h0 => absurd (neg_eq_zero.1 h0) hne, fun _ => ⟨s, t - q, by rw [hq]; rfl, trivial, ?_⟩⟩
    rw [val_sub, show t.val - q.val - t.val - -(1 / (Nat.factorial i : ℚ)) * P.val =
      -(q.val - 1 / (Nat.factorial i : ℚ) * P.val) by ring, abs_neg, _root_.neg_mul, abs_neg]
    exact he

theorem follows_cos : Follows cosTerm cosC divEps (fun _ _ => True) := by
  intro i s t P F _ hF
  have hc : (1 / (Nat.factorial i : ℚ)) * F.val = 1 := by rw [hF]; field_simp
  obtain ⟨q, hq, he⟩ := div_follow P F _ hc
  have hne : (1 : ℚ) / (Nat.factorial i : ℚ) ≠ 0 := by positivity
  unfold cosC cosTerm
  have h4 : i % 4 = 0 ∨ i % 4 = 1 ∨ i % 4 = 2 ∨ i % 4 = 3 := by omega
  rcases h4 with h | h | h | h
  · simp only [h, if_true]
    refine ⟨fun h0 => absurd h0 hne, fun _ => ⟨s, t + q, by rw [hq]; rfl, trivial, ?_⟩⟩
    rw [val_add, add_sub_cancel_left]; exact he
  · simp [h]
  · simp only [h, if_true, OfNat.ofNat_ne_zero, if_false]
    refine ⟨fun h0 => absurd (neg_eq_zero.1 h0) hne, fun _ => ⟨s, t - q, by rw [hq]; rfl, trivial, ?_⟩⟩
    rw [val_sub, show t.val - q.val - t.val - -(1 / (Nat.factorial i : ℚ)) * P.val =
      -(q.val - 1 / (Nat.factorial i : ℚ) * P.val) by ring, abs_neg, _root_.neg_mul, abs_neg]
    exact he
  · simp [h]

theorem hasSum_exp (x : ℝ) : HasSum (fun j => (expC j : ℝ) * x ^ j) (Real.exp x) := by
  have h : HasSum (fun k : ℕ => x ^ k / (Nat.factorial k : ℝ)) (Real.exp x) := by
    rw [Real.exp_eq_exp_ℝ]; exact NormedSpace.expSeries_div_hasSum_exp x
  refine h.congr_fun ?_ |> fun h => h
  intro j
  unfold expC
  push_cast
  ring

/-- A sum over even indices. -/
theorem hasSum_even {g : ℕ → ℝ} {v : ℝ} {a : ℕ → ℝ} (h : HasSum a v) (h0 : ∀ k, g (2 * k) = a k)
    (h1 : ∀ k, g (2 * k + 1) = 0) : HasSum g v := by
  have : HasSum (fun k => g (2 * k)) v := by simpa only [h0] using h
  have h2 : HasSum (fun k => g (2 * k + 1)) 0 := by simp only [h1]; exact hasSum_zero
  simpa using this.even_add_odd h2

/-- A sum over odd indices. -/
theorem hasSum_odd {g : ℕ → ℝ} {v : ℝ} {a : ℕ → ℝ} (h : HasSum a v) (h0 : ∀ k, g (2 * k) = 0)
    (h1 : ∀ k, g (2 * k + 1) = a k) : HasSum g v := by
  have : HasSum (fun k => g (2 * k + 1)) v := by simpa only [h1] using h
  have h2 : HasSum (fun k => g (2 * k)) 0 := by simp only [h0]; exact hasSum_zero
  simpa using h2.even_add_odd this

theorem hasSum_sin (x : ℝ) : HasSum (fun j => (sinC j : ℝ) * x ^ j) (Real.sin x) := by
  refine hasSum_odd (Real.hasSum_sin x) (fun k => ?_) (fun k => ?_)
  · have : sinC (2 * k) = 0 := by unfold sinC; rw [if_neg (by omega), if_neg (by omega)]
    rw [this]; simp
  · unfold sinC
    rcases Nat.even_or_odd' k with ⟨m, rfl | rfl⟩
    · rw [if_pos (by omega)]; simp; ring
    · rw [if_neg (by omega), if_pos (by omega)]; simp [pow_succ]; ring

theorem hasSum_cos (x : ℝ) : HasSum (fun j => (cosC j : ℝ) * x ^ j) (Real.cos x) := by
  refine hasSum_even (Real.hasSum_cos x) (fun k => ?_) (fun k => ?_)
  · unfold cosC
    rcases Nat.even_or_odd' k with ⟨m, rfl | rfl⟩
    · rw [if_pos (by omega)]; simp; ring
    · rw [if_neg (by omega), if_pos (by omega)]; simp [pow_succ]; ring
  · have : cosC (2 * k + 1) = 0 := by unfold cosC; rw [if_neg (by omega), if_neg (by omega)]
    rw [this]; simp

end Bd
end Verif

import Verif.Lemmas.ChebNodes
import Verif.Lemmas.Interp

/-!
# Interpolation at nodes close to the Chebyshev nodes
-/

namespace Verif

open Polynomial

/-- Changing every factor a little changes the product a little. -/
theorem prod_close {ι : Type} (s : Finset ι) (a b : ι → ℝ) (R ε : ℝ) (hR : 1 ≤ R) (hε : 0 ≤ ε) (ha : ∀ i ∈ s, |a i| ≤ R) (hb : ∀ i ∈ s, |b i| ≤ R)
    (h : ∀ i ∈ s, |a i - b i| ≤ ε) : |∏ i ∈ s, a i - ∏ i ∈ s, b i| ≤ s.card * ε * R ^ s.card := by
  classical
  induction s using Finset.induction_on with
  | empty => simp
  | insert i s hi ih =>
    rw [Finset.prod_insert hi, Finset.prod_insert hi, Finset.card_insert_of_notMem hi]
    have h1 := ih (fun j hj => ha j (Finset.mem_insert_of_mem hj)) (fun j hj => hb j (Finset.mem_insert_of_mem hj))
      (fun j hj => h j (Finset.mem_insert_of_mem hj))
    have h2 : |∏ j ∈ s, a j| ≤ R ^ s.card := by
      rw [Finset.abs_prod, ← Finset.prod_const]
      exact Finset.prod_le_prod (fun j _ => abs_nonneg _) (fun j hj => ha j (Finset.mem_insert_of_mem hj))
    have e : a i * ∏ j ∈ s, a j - b i * ∏ j ∈ s, b j = (a i - b i) * ∏ j ∈ s, a j + b i * (∏ j ∈ s, a j - ∏ j ∈ s, b j) := by ring
    rw [e]
    have hR0 : 0 ≤ R := by linarith
    calc _ ≤ |(a i - b i) * ∏ j ∈ s, a j| + |b i * (∏ j ∈ s, a j - ∏ j ∈ s, b j)| := abs_add_le _ _
      _ ≤ ε * R ^ s.card + R * (s.card * ε * R ^ s.card) := by
        rw [abs_mul, abs_mul]
        exact add_le_add (mul_le_mul (h i (Finset.mem_insert_self _ _)) h2 (abs_nonneg _) hε)
          (mul_le_mul (hb i (Finset.mem_insert_self _ _)) h1 (abs_nonneg _) hR0)
      _ ≤ R * (ε * R ^ s.card) + R * (s.card * ε * R ^ s.card) := by
        have : 0 ≤ ε * R ^ s.card := by positivity
        nlinarith
      _ = _ := by push_cast; ring

/-- Points close to the nodes of `[c - h, c + h]`. -/
structure NearNodes (N : ℕ) (c h ε : ℝ) (x : ℕ → ℝ) : Prop where
  one : 1 ≤ N
  pos : 0 < h
  nonneg : 0 ≤ ε
  inside : ∀ i ≤ N, |x i - c| ≤ h
  near : ∀ i ≤ N, |x i - (c + h * cnode N i)| ≤ h * ε

theorem abs_sub_two {u v : ℝ} (hu : |u| ≤ 1) (hv : |v| ≤ 1) : |u - v| ≤ 2 := by
  have := abs_sub u v
  linarith

namespace NearNodes

variable {N : ℕ} {c h ε : ℝ} {x : ℕ → ℝ}

/-- The points moved to `[-1, 1]`. -/
theorem unit (H : NearNodes N c h ε x) {i : ℕ} (hi : i ≤ N) : |(x i - c) / h| ≤ 1 ∧ |(x i - c) / h - cnode N i| ≤ ε := by
  have hp := H.pos
  constructor
  · rw [abs_div, abs_of_pos hp, div_le_one hp]; exact H.inside i hi
  · have := H.near i hi
    rw [show x i - (c + h * cnode N i) = h * ((x i - c) / h - cnode N i) by field_simp; ring, abs_mul, abs_of_pos hp] at this
    exact le_of_mul_le_mul_left this hp

theorem scaled (H : NearNodes N c h ε x) (s : Finset ℕ) (t : ℝ) :
    ∏ i ∈ s, |t - x i| = h ^ s.card * ∏ i ∈ s, |(t - c) / h - (x i - c) / h| := by
  have hp := H.pos
  rw [← Finset.prod_const, ← Finset.prod_mul_distrib]
  apply Finset.prod_congr rfl
  intro i _
  rw [← abs_of_pos hp, ← abs_mul, abs_of_pos hp]
  congr 1
  field_simp
  ring

/-- The product over all points. -/
theorem prod_all (H : NearNodes N c h ε x) (t : ℝ) (ht : |t - c| ≤ h) :
    ∏ i ∈ Finset.range (N + 1), |t - x i| ≤ h ^ (N + 1) * (1 / 2 ^ (N - 1) + (N + 1) * ε * 2 ^ (N + 1)) := by
  have hp := H.pos
  rw [H.scaled, Finset.card_range]
  apply mul_le_mul_of_nonneg_left _ (by positivity)
  have hu : |(t - c) / h| ≤ 1 := by rw [abs_div, abs_of_pos hp, div_le_one hp]; exact ht
  set u := (t - c) / h
  have h1 := prod_nodes N H.one u hu
  have h2 := prod_close (Finset.range (N + 1)) (fun i => u - (x i - c) / h) (fun i => u - cnode N i) 2 ε (by norm_num) H.nonneg
    (fun i hi => abs_sub_two hu (H.unit (by simpa [Nat.lt_succ_iff] using hi)).1) (fun i _ => abs_sub_two hu (cnode_mem N i))
    (fun i hi => by
      rw [show u - (x i - c) / h - (u - cnode N i) = -((x i - c) / h - cnode N i) by ring, abs_neg]
      exact (H.unit (by simpa [Nat.lt_succ_iff] using hi)).2)
  rw [Finset.card_range] at h2
  rw [← Finset.abs_prod] at h1 ⊢
  have h3 : |∏ i ∈ Finset.range (N + 1), (u - cnode N i)| ≤ 1 / 2 ^ (N - 1) := by
    rw [le_div_iff₀ (by positivity)]; linarith
  have h4 := abs_sub_abs_le_abs_sub (∏ i ∈ Finset.range (N + 1), (u - (x i - c) / h)) (∏ i ∈ Finset.range (N + 1), (u - cnode N i))
  push_cast at h2
  linarith

/-- The product over all points but one is at most three times its value at that point. -/
theorem prod_erase (H : NearNodes N c h ε x) (hε : ε * 4 ^ N ≤ 1 / 8) (i : ℕ) (hi : i ≤ N) (t : ℝ) (ht : |t - c| ≤ h) :
    ∏ j ∈ (Finset.range (N + 1)).erase i, |t - x j| ≤ 3 * ∏ j ∈ (Finset.range (N + 1)).erase i, |x i - x j| ∧
      0 < ∏ j ∈ (Finset.range (N + 1)).erase i, |x i - x j| := by
  have hp := H.pos
  rw [H.scaled, H.scaled]
  have hcard : ((Finset.range (N + 1)).erase i).card = N := by
    rw [Finset.card_erase_of_mem (Finset.mem_range.2 (by omega)), Finset.card_range]; rfl
  rw [hcard]
  have hu : |(t - c) / h| ≤ 1 := by rw [abs_div, abs_of_pos hp, div_le_one hp]; exact ht
  set u := (t - c) / h
  have hmem : ∀ j ∈ (Finset.range (N + 1)).erase i, j ≤ N := fun j hj => by
    have := Finset.mem_range.1 (Finset.mem_of_mem_erase hj); omega
  have h1 := prod_nodes_erase N i H.one hi u hu
  have h2 := prod_nodes_self N i H.one hi
  have h3 := prod_close ((Finset.range (N + 1)).erase i) (fun j => u - (x j - c) / h) (fun j => u - cnode N j) 2 ε (by norm_num) H.nonneg
    (fun j hj => abs_sub_two hu (H.unit (hmem j hj)).1) (fun j _ => abs_sub_two hu (cnode_mem N j))
    (fun j hj => by
      rw [show u - (x j - c) / h - (u - cnode N j) = -((x j - c) / h - cnode N j) by ring, abs_neg]
      exact (H.unit (hmem j hj)).2)
  have h4 := prod_close ((Finset.range (N + 1)).erase i) (fun j => (x i - c) / h - (x j - c) / h) (fun j => cnode N i - cnode N j) 2 (2 * ε) (by norm_num)
    (by have := H.nonneg; linarith)
    (fun j hj => abs_sub_two (H.unit hi).1 (H.unit (hmem j hj)).1) (fun j _ => abs_sub_two (cnode_mem N i) (cnode_mem N j))
    (fun j hj => by
      rw [show (x i - c) / h - (x j - c) / h - (cnode N i - cnode N j) = ((x i - c) / h - cnode N i) - ((x j - c) / h - cnode N j) by ring]
      have a1 := (H.unit hi).2
      have a2 := (H.unit (hmem j hj)).2
      have a3 := abs_sub ((x i - c) / h - cnode N i) ((x j - c) / h - cnode N j)
      linarith)
  rw [hcard] at h3 h4
  rw [← Finset.abs_prod] at h1 h2
  rw [← Finset.abs_prod, ← Finset.abs_prod]
  generalize (∏ j ∈ (Finset.range (N + 1)).erase i, (u - (x j - c) / h)) = p1 at *
  generalize (∏ j ∈ (Finset.range (N + 1)).erase i, (u - cnode N j)) = p2 at *
  generalize (∏ j ∈ (Finset.range (N + 1)).erase i, ((x i - c) / h - (x j - c) / h)) = q1 at *
  generalize (∏ j ∈ (Finset.range (N + 1)).erase i, (cnode N i - cnode N j)) = q2 at *
  obtain ⟨M, hM⟩ : ∃ M, N = M + 1 := ⟨N - 1, by have := H.one; omega⟩
  have hP : (2 : ℝ) ^ (N - 1) = 2 ^ N / 2 := by rw [hM, Nat.add_sub_cancel, pow_succ]; ring
  have h4N : (4 : ℝ) ^ N = 2 ^ N * 2 ^ N := by rw [← mul_pow]; norm_num
  rw [hP] at h1 h2
  have hN0 : (0 : ℝ) < N := by exact_mod_cast H.one
  have hA : (0 : ℝ) < 2 ^ N := by positivity
  generalize (2 : ℝ) ^ N = A at *
  rw [h4N] at hε
  have g1 := abs_sub_abs_le_abs_sub p1 p2
  have g2 := abs_sub_abs_le_abs_sub q2 q1
  rw [abs_sub_comm] at g2
  -- multiply through by A
  have k1 : A * |p1| ≤ 4 * N + N * (ε * (A * A)) := by nlinarith
  have k2 : 2 * N - 2 * N * (ε * (A * A)) ≤ A * |q1| := by nlinarith
  have k3 : N * (ε * (A * A)) ≤ N * (1 / 8) := mul_le_mul_of_nonneg_left hε hN0.le
  have k4 : N ≤ A * |q1| := by linarith
  have hq : 0 < |q1| := by
    by_contra hq
    have : |q1| = 0 := le_antisymm (not_lt.1 hq) (abs_nonneg _)
    rw [this, mul_zero] at k4
    linarith
  have k5 : |p1| ≤ 3 * |q1| := by
    have : A * |p1| ≤ A * (3 * |q1|) := by linarith
    exact le_of_mul_le_mul_left this hA
  have hh : 0 < h ^ N := by positivity
  refine ⟨?_, mul_pos hh hq⟩
  calc h ^ N * |p1| ≤ h ^ N * (3 * |q1|) := mul_le_mul_of_nonneg_left k5 hh.le
    _ = _ := by ring

/-- The gap between two points. -/
theorem gap (H : NearNodes N c h ε x) (i j : ℕ) (hij : i ≤ j) (hj : j ≤ N) : h * (2 * ((j - i : ℕ) / N : ℝ) ^ 2 - 2 * ε) ≤ x j - x i := by
  have hp := H.pos
  have h1 := cnode_gap N i j H.one hij hj
  have h2 := abs_le.1 (H.near i (by omega))
  have h3 := abs_le.1 (H.near j hj)
  have h4 := mul_le_mul_of_nonneg_left h1 hp.le
  nlinarith

/-- A polynomial that is small at the points is small in between. -/
theorem small (H : NearNodes N c h ε x) (hε : ε * 4 ^ N ≤ 1 / 8) (Q : ℝ[X]) (hQ : Q.degree < (N + 1 : ℕ)) (δ : ℝ)
    (hδ : ∀ i ≤ N, |Q.eval (x i)| ≤ δ) (t : ℝ) (ht : |t - c| ≤ h) : |Q.eval t| ≤ 3 * (N + 1) * δ := by
  have hinj : Set.InjOn x (Finset.range (N + 1) : Set ℕ) := by
    intro i hi j hj hxy
    by_contra hne
    simp only [Finset.coe_range, Set.mem_Iio] at hi hj
    have := (H.prod_erase hε i (by omega) t ht).2
    rw [Finset.prod_eq_zero (i := j) (Finset.mem_erase.2 ⟨fun h => hne h.symm, Finset.mem_range.2 hj⟩) (by rw [hxy]; simp)] at this
    exact lt_irrefl _ this
  have hI := Lagrange.eq_interpolate (f := Q) hinj (by rw [Finset.card_range]; exact hQ)
  rw [hI, Lagrange.interpolate_apply, eval_finset_sum]
  refine (Finset.abs_sum_le_sum_abs _ _).trans ?_
  have hterm : ∀ i ∈ Finset.range (N + 1), |(C (Q.eval (x i)) * Lagrange.basis (Finset.range (N + 1)) x i).eval t| ≤ 3 * δ := by
    intro i hi
    have hiN : i ≤ N := by have := Finset.mem_range.1 hi; omega
    obtain ⟨h1, h2⟩ := H.prod_erase hε i hiN t ht
    rw [eval_mul, eval_C, abs_mul, Lagrange.basis, eval_prod, Finset.abs_prod]
    have e : ∏ j ∈ (Finset.range (N + 1)).erase i, |(Lagrange.basisDivisor (x i) (x j)).eval t| =
        (∏ j ∈ (Finset.range (N + 1)).erase i, |t - x j|) / ∏ j ∈ (Finset.range (N + 1)).erase i, |x i - x j| := by
      rw [← Finset.prod_div_distrib]
      apply Finset.prod_congr rfl
      intro j _
      rw [Lagrange.basisDivisor, eval_mul, eval_C, eval_sub, eval_X, eval_C, abs_mul, abs_inv, inv_mul_eq_div]
    rw [e]
    have h3 : (∏ j ∈ (Finset.range (N + 1)).erase i, |t - x j|) / ∏ j ∈ (Finset.range (N + 1)).erase i, |x i - x j| ≤ 3 := by
      rw [div_le_iff₀ h2]; exact h1
    have h4 := hδ i hiN
    calc _ ≤ δ * 3 := mul_le_mul h4 h3 (div_nonneg (Finset.prod_nonneg fun _ _ => abs_nonneg _) h2.le) ((abs_nonneg _).trans h4)
      _ = _ := by ring
  calc _ ≤ ∑ _i ∈ Finset.range (N + 1), 3 * δ := Finset.sum_le_sum hterm
    _ = _ := by rw [Finset.sum_const, Finset.card_range, nsmul_eq_mul]; push_cast; ring

end NearNodes

/-! ## The uniform error -/

/-- **The uniform error** of a polynomial that nearly interpolates. -/
theorem uniform_error {N : ℕ} {c h ε : ℝ} {x : ℕ → ℝ} (H : NearNodes N c h ε x) (hε : ε * 4 ^ N ≤ 1 / 8) (F : ℕ → ℝ → ℝ)
    (hF : DerivChain F (N + 1) (c - h) (c + h)) (B : ℝ) (hB : ∀ t ∈ Set.Icc (c - h) (c + h), |F (N + 1) t| ≤ B) (P : ℝ[X])
    (hP : P.degree < (N + 1 : ℕ)) (δ : ℝ) (hδ : ∀ i ≤ N, |P.eval (x i) - F 0 (x i)| ≤ δ) (t : ℝ) (ht : t ∈ Set.Icc (c - h) (c + h)) :
    |P.eval t - F 0 t| ≤ B / (N + 1).factorial * (h ^ (N + 1) * (1 / 2 ^ (N - 1) + (N + 1) * ε * 2 ^ (N + 1))) + 3 * (N + 1) * δ := by
  have hin : ∀ u : ℝ, |u - c| ≤ h ↔ u ∈ Set.Icc (c - h) (c + h) := fun u => by rw [abs_le, Set.mem_Icc]; constructor <;> rintro ⟨a, b⟩ <;> constructor <;> linarith
  have ht' := (hin t).2 ht
  have hinj : Set.InjOn x (Finset.range (N + 1) : Set ℕ) := by
    intro i hi j hj hxy
    by_contra hne
    simp only [Finset.coe_range, Set.mem_Iio] at hi hj
    have := (H.prod_erase hε i (by omega) t ht').2
    rw [Finset.prod_eq_zero (i := j) (Finset.mem_erase.2 ⟨fun h => hne h.symm, Finset.mem_range.2 hj⟩) (by rw [hxy]; simp)] at this
    exact lt_irrefl _ this
  set p := Lagrange.interpolate (Finset.range (N + 1)) x (fun i => F 0 (x i)) with hp
  have hpd : p.degree < (N + 1 : ℕ) := by
    have := Lagrange.degree_interpolate_lt (fun i => F 0 (x i)) hinj
    rwa [Finset.card_range] at this
  have hpe : ∀ i < N + 1, p.eval (x i) = F 0 (x i) := fun i hi => Lagrange.eval_interpolate_at_node _ hinj (Finset.mem_range.2 hi)
  have h1 := interp_error F (N + 1) (c - h) (c + h) hF x hinj (fun i hi => (hin _).1 (H.inside i (by omega))) p hpd hpe B hB t ht
  have hB0 : 0 ≤ B := (abs_nonneg _).trans (hB t ht)
  have h2 := mul_le_mul_of_nonneg_left (H.prod_all t ht') (by positivity : 0 ≤ B / ((N + 1).factorial : ℝ))
  have h3 := H.small hε (P - p) (lt_of_le_of_lt (degree_sub_le _ _) (max_lt hP hpd)) δ (fun i hi => by
    rw [eval_sub, hpe i (by omega)]; exact hδ i hi) t ht'
  rw [eval_sub] at h3
  have h4 := abs_add_le (P.eval t - p.eval t) (-(F 0 t - p.eval t))
  rw [abs_neg, show P.eval t - p.eval t + -(F 0 t - p.eval t) = P.eval t - F 0 t by ring] at h4
  linarith

end Verif

import Verif.Lemmas.NodeBounds

/-!
# The error of computed divided differences
-/

namespace Verif

theorem one_le_prod_real {ι : Type} (s : Finset ι) (a : ι → ℝ) (h : ∀ i ∈ s, 1 ≤ a i) : 1 ≤ ∏ i ∈ s, a i :=
  Finset.prod_induction a (fun r => 1 ≤ r) (fun _ _ => one_le_mul_of_one_le_of_one_le) le_rfl h

/-- Differences computed with a small error in each step stay close to the exact ones. -/
theorem dd_error (x f : ℕ → ℝ) (d : ℕ → ℕ → ℝ) (N : ℕ) (g A : ℕ → ℝ) (α β η M₀ : ℝ) (hα : 0 ≤ α) (hβ : 0 ≤ β) (hη : 0 ≤ η)
    (hg : ∀ s, 1 ≤ s → s ≤ N → 0 < g s) (hgap : ∀ a s, 1 ≤ s → a + s ≤ N → g s ≤ x (a + s) - x a)
    (h0 : ∀ a ≤ N, |d a 0 - f a| ≤ η)
    (hstep : ∀ a s, a + s + 1 ≤ N → |d a (s + 1) - (d (a + 1) s - d a s) / (x (a + s + 1) - x a)| ≤
      α * |(d (a + 1) s - d a s) / (x (a + s + 1) - x a)| + β)
    (hM : ∀ a s, a + s ≤ N → |rdd x f a s| ≤ M₀) (hA : ∀ s, 1 ≤ s → s ≤ N → 1 ≤ A s ∧ 2 * (1 + α) / g s ≤ A s) :
    ∀ s a, a + s ≤ N → |d a s - rdd x f a s| ≤ (η + s * (α * M₀ + β)) * ∏ j ∈ Finset.range s, A (j + 1) := by
  have hM0 : 0 ≤ M₀ := (abs_nonneg _).trans (hM 0 0 (by omega))
  intro s
  induction s with
  | zero => intro a ha; simpa [rdd] using h0 a (by omega)
  | succ s ih =>
    intro a ha
    have i1 := ih (a + 1) (by omega)
    have i2 := ih a (by omega)
    have hAs := hA (s + 1) (by omega) (by omega)
    have hgs := hg (s + 1) (by omega) (by omega)
    have hga := hgap a (s + 1) (by omega) (by omega)
    rw [show a + (s + 1) = a + s + 1 by ring] at hga
    have hP1 : 1 ≤ ∏ j ∈ Finset.range s, A (j + 1) := by
      refine one_le_prod_real _ _ fun j hj => ?_
      have := Finset.mem_range.1 hj
      exact (hA (j + 1) (by omega) (by omega)).1
    have hst := hstep a s (by omega)
    have hr := hM a (s + 1) (by omega)
    rw [Finset.prod_range_succ]
    set P := ∏ j ∈ Finset.range s, A (j + 1)
    set gap := x (a + s + 1) - x a
    have hgp : 0 < gap := by linarith
    set E := (η + s * (α * M₀ + β)) * P
    have hE : 0 ≤ E := (abs_nonneg _).trans i1
    have hz : |(d (a + 1) s - d a s) / gap - rdd x f a (s + 1)| ≤ 2 * E / g (s + 1) := by
      have e : (d (a + 1) s - d a s) / gap - rdd x f a (s + 1) = ((d (a + 1) s - rdd x f (a + 1) s) - (d a s - rdd x f a s)) / gap := by
        rw [rdd]; ring
      rw [e, abs_div, abs_of_pos hgp]
      have := abs_sub (d (a + 1) s - rdd x f (a + 1) s) (d a s - rdd x f a s)
      apply div_le_div₀ (by linarith) (by linarith) hgs hga
    generalize (d (a + 1) s - d a s) / gap = z at *
    have h1 := abs_sub_le (d a (s + 1)) z (rdd x f a (s + 1))
    have h2 : |z| ≤ |z - rdd x f a (s + 1)| + |rdd x f a (s + 1)| := by simpa using abs_add_le (z - rdd x f a (s + 1)) (rdd x f a (s + 1))
    have h3 : α * |z| ≤ α * (|z - rdd x f a (s + 1)| + M₀) := mul_le_mul_of_nonneg_left (by linarith) hα
    have h4 : (1 + α) * |z - rdd x f a (s + 1)| ≤ (1 + α) * (2 * E / g (s + 1)) := mul_le_mul_of_nonneg_left hz (by linarith)
    have h5 : (1 + α) * (2 * E / g (s + 1)) ≤ A (s + 1) * E := by
      have := mul_le_mul_of_nonneg_right hAs.2 hE
      calc _ = 2 * (1 + α) / g (s + 1) * E := by ring
        _ ≤ _ := this
    have h6 : α * M₀ + β ≤ (α * M₀ + β) * (P * A (s + 1)) := by
      have h7 : 1 ≤ P * A (s + 1) := one_le_mul_of_one_le_of_one_le hP1 hAs.1
      have h8 : 0 ≤ α * M₀ + β := by positivity
      nlinarith
    have e9 : (η + ((s + 1 : ℕ) : ℝ) * (α * M₀ + β)) * (P * A (s + 1)) = A (s + 1) * E + (α * M₀ + β) * (P * A (s + 1)) := by
      simp only [E]; push_cast; ring
    rw [e9]
    nlinarith

/-- How much errors of the samples can grow in the differences. -/
noncomputable def ddAmp (N : ℕ) (h : ℝ) : ℝ := ∏ j ∈ Finset.range N, ((N : ℝ) / (j + 1)) ^ 2 * (101 / 100 / h)

/-- The same at points close to the Chebyshev nodes. -/
theorem NearNodes.dd_error {N : ℕ} {c h ε : ℝ} {x : ℕ → ℝ} (H : NearNodes N c h ε x) (hh : h ≤ 1) (hε : ε * N ^ 2 ≤ 1 / 1000)
    (f : ℕ → ℝ) (d : ℕ → ℕ → ℝ) (α β η M₀ : ℝ) (hα : 0 ≤ α) (hα1 : α ≤ 1 / 1000) (hβ : 0 ≤ β) (hη : 0 ≤ η)
    (h0 : ∀ a ≤ N, |d a 0 - f a| ≤ η)
    (hstep : ∀ a s, a + s + 1 ≤ N → |d a (s + 1) - (d (a + 1) s - d a s) / (x (a + s + 1) - x a)| ≤
      α * |(d (a + 1) s - d a s) / (x (a + s + 1) - x a)| + β)
    (hM : ∀ a s, a + s ≤ N → |rdd x f a s| ≤ M₀) (s a : ℕ) (hs : a + s ≤ N) :
    |d a s - rdd x f a s| ≤ (η + N * (α * M₀ + β)) * ddAmp N h := by
  have hp := H.pos
  have hN0 : (0 : ℝ) < N := by exact_mod_cast H.one
  have hM0 : 0 ≤ M₀ := (abs_nonneg _).trans (hM 0 0 (by omega))
  have hA1 : ∀ j : ℕ, j < N → 1 ≤ ((N : ℝ) / (j + 1)) ^ 2 * (101 / 100 / h) := by
    intro j hj
    have h1 : (1 : ℝ) ≤ N / (j + 1) := by
      rw [le_div_iff₀ (by positivity), one_mul]; exact_mod_cast hj
    have h2 : 1 ≤ 101 / 100 / h := by rw [le_div_iff₀ hp]; linarith
    exact one_le_mul_of_one_le_of_one_le (one_le_pow₀ h1) h2
  have hlow : ∀ s : ℕ, 1 ≤ s → ε ≤ 1 / 1000 * ((s : ℝ) / N) ^ 2 := by
    intro s h1
    have hs1 : (1 : ℝ) ≤ s := by exact_mod_cast h1
    rw [div_pow, ← mul_div_assoc, le_div_iff₀ (by positivity)]
    nlinarith [one_le_pow₀ hs1 (n := 2)]
  have key := Verif.dd_error x f d N (fun s => h * (2 * ((s : ℝ) / N) ^ 2 - 2 * ε)) (fun s => ((N : ℝ) / s) ^ 2 * (101 / 100 / h)) α β η M₀ hα hβ hη
    ?_ ?_ h0 hstep hM ?_ s a hs
  · refine key.trans ?_
    have hP : ∏ j ∈ Finset.range s, ((N : ℝ) / ((j + 1 : ℕ) : ℝ)) ^ 2 * (101 / 100 / h) ≤ ddAmp N h := by
      obtain ⟨r, hr⟩ : ∃ r, N = s + r := ⟨N - s, by omega⟩
      unfold ddAmp
      have e : ∏ j ∈ Finset.range N, ((N : ℝ) / (j + 1)) ^ 2 * (101 / 100 / h) =
          (∏ j ∈ Finset.range s, ((N : ℝ) / ((j + 1 : ℕ) : ℝ)) ^ 2 * (101 / 100 / h)) *
          ∏ j ∈ Finset.range r, ((N : ℝ) / ((s + j + 1 : ℕ) : ℝ)) ^ 2 * (101 / 100 / h) := by
        rw [← Finset.prod_range_add (fun j => ((N : ℝ) / ((j + 1 : ℕ) : ℝ)) ^ 2 * (101 / 100 / h)), ← hr]
        push_cast
        rfl
      rw [e]
      apply le_mul_of_one_le_right
      · exact Finset.prod_nonneg fun j _ => by positivity
      · refine one_le_prod_real _ _ fun j hj => ?_
        have := hA1 (s + j) (by have := Finset.mem_range.1 hj; omega)
        push_cast at this ⊢
        exact this
    have hs' : (s : ℝ) ≤ N := by exact_mod_cast (by omega : s ≤ N)
    have hc : 0 ≤ α * M₀ + β := by positivity
    exact mul_le_mul (by nlinarith) hP (Finset.prod_nonneg fun j _ => by positivity) (by positivity)
  · intro s h1 h2
    have h3 := hlow s h1
    have h4 : 0 < ((s : ℝ) / N) ^ 2 := by
      have : (0 : ℝ) < s := by exact_mod_cast h1
      positivity
    apply mul_pos hp
    linarith
  · intro a s h1 h2
    have := H.gap a (a + s) (by omega) h2
    rwa [Nat.add_sub_cancel_left] at this
  · intro s h1 h2
    have hs0 : (0 : ℝ) < s := by exact_mod_cast h1
    have h3 := hlow s h1
    have h4 : 0 < ((s : ℝ) / N) ^ 2 := by positivity
    refine ⟨by have := hA1 (s - 1) (by omega); rwa [← Nat.cast_add_one, Nat.sub_add_cancel h1] at this, ?_⟩
    rw [show ((N : ℝ) / s) ^ 2 * (101 / 100 / h) = 101 / 100 / (h * (s / N) ^ 2) by field_simp, div_le_div_iff₀ (mul_pos hp (by linarith)) (by positivity)]
    have h5 : 2 * (1 + α) * ((s : ℝ) / N) ^ 2 ≤ 101 / 100 * (2 * ((s : ℝ) / N) ^ 2 - 2 * ε) := by nlinarith
    nlinarith [mul_le_mul_of_nonneg_left h5 hp.le]

end Verif

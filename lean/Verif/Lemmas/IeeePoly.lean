import Verif.Lemmas.IeeeRound
import Verif.Props.EndToEnd

/-!
# The shipped polynomials in IEEE 754 arithmetic
-/

namespace Verif
open Dec

namespace FloatFmt

theorem tiny_fmtOf (b32 : Bool) : (fmtOf b32).tiny ≤ 1 / 2 ^ 126 := by
  cases b32
  · show (2 : ℝ) ^ (1 - ((1023 : ℕ) : ℤ)) ≤ 1 / 2 ^ 126
    calc (2 : ℝ) ^ (1 - ((1023 : ℕ) : ℤ)) ≤ (2 : ℝ) ^ (-126 : ℤ) := zpow_le_zpow_right₀ (by norm_num) (by norm_num)
      _ = _ := by norm_num
  · show (2 : ℝ) ^ (1 - ((127 : ℕ) : ℤ)) ≤ 1 / 2 ^ 126
    norm_num

theorem bias_fmtOf (b32 : Bool) : (2 : ℝ) ^ 127 ≤ 2 ^ (fmtOf b32).bias := by
  cases b32
  · exact pow_le_pow_right₀ (by norm_num) (by decide)
  · exact le_of_eq rfl

/-- Many roundings cost little more than their sum. -/
theorem eps_pow {F : FloatFmt} (h : F.Wide) {N : ℕ} (hN : N ≤ 100) : (1 + F.eps) ^ N - 1 ≤ 101 / 100 * N * F.eps := by
  have he := eps_le h
  have hε := eps_pos (F := F)
  have hn : (N : ℝ) ≤ 100 := by exact_mod_cast hN
  have hn0 : (0 : ℝ) ≤ N := Nat.cast_nonneg N
  have h1 : (1 + F.eps) ^ N ≤ Real.exp (N * F.eps) := by
    rw [Real.exp_nat_mul]
    exact pow_le_pow_left₀ (by linarith) (by linarith [Real.add_one_le_exp F.eps]) _
  have hx : N * F.eps ≤ 1 / 100 := by
    calc N * F.eps ≤ 100 * (1 / 2 ^ 21) := mul_le_mul hn he hε.le (by norm_num)
      _ ≤ _ := by norm_num
  have hx0 : 0 ≤ N * F.eps := by positivity
  have h2 := Real.abs_exp_sub_one_sub_id_le (x := N * F.eps) (by rw [abs_of_nonneg hx0]; linarith)
  have h3 := (abs_le.1 h2).2
  nlinarith

end FloatFmt

section
variable {ext : BdExt} {fx : FloatExt} {b32 : Bool} {u w : ℝ}

/-- The polynomial in the code, in float arithmetic, for a symmetric interval. -/
theorem LitOk.code_near_ieee (h : IeeeOk fx b32 u w) (hu : u ≤ 1 / 1000) (hw : w ≤ 1 / 1000) (terms : List Dec) (s : String) (parity : Parity) (N : ℕ) (hN : N ≤ 100)
    (hlen : terms.length = N + 1) (hp : parity.accepts (N + 1)) {f : ℝ → ℝ} {ε W τ A A' T δ L : ℝ} (hW : 1 / 10 ≤ W) (hδ0 : 0 ≤ δ) (hδ : δ ≤ W / 10 ^ 6) (hW1 : W + δ ≤ 1)
    (herr : ∀ t ∈ Set.Icc (-W) W, |∑ i ∈ Finset.range (N + 1), (if parity.keeps i then (valAt terms i : ℝ) * t ^ i else 0) - f t| ≤ ε)
    (hf : NearPoly f N W τ A) (hA : A + 2 * (ε + τ) * ∑ k ∈ Finset.range (N + 1), silver ^ k ≤ A') (hA0 : 0 ≤ A') (hbig : A' ≤ 10 ^ 30 * W ^ N)
    (hT : 101 / 100 * A' + (N + 1) / 500 ≤ T) (hfin : 2 * T ≤ 2 ^ 127 * W ^ (N + 1))
    (hL : ∀ x c : ℝ, |x| ≤ W + δ → |c| ≤ W → |x - c| ≤ δ → |f c - f x| ≤ L * δ) (hN1 : 1 ≤ N := by norm_num) :
    ∃ r e, mulAddPolynomial terms [s] parity = .ok r ∧ useNumberType fx r "decimal" (widthOf b32) = .ok e ∧
      ∀ calls, ApproxIE (ieeeInterp (fmtOf b32) calls) s e.toR f (Set.Icc (-(W + δ)) (W + δ))
        (ε + u * A' + w * (N + 1) + δ * (2 * N / W * ((1 + u) * A' + w * (N + 1)) + L) + 101 / 100 * N * T * (fmtOf b32).eps) := by
  have hW0 : 0 < W := by linarith
  have hWle : W ≤ 1 := by linarith
  have hgrow : (1 + δ / W) ^ N ≤ 2 := by
    have h1 : δ / W ≤ 1 / 10 ^ 6 := by rw [div_le_iff₀ hW0]; linarith
    calc (1 + δ / W) ^ N ≤ (1 + 1 / 10 ^ 6) ^ N := pow_le_pow_left₀ (by positivity) (by linarith) _
      _ ≤ (1 + 1 / 10 ^ 6) ^ 100 := pow_le_pow_right₀ (by norm_num) hN
      _ ≤ 2 := by norm_num
  have hn := h.nonneg
  obtain ⟨hsize, hsum, hnear⟩ := h.code_coeffs terms parity N hlen hW0 hWle herr hf hA hbig hδ0 hgrow hL
  set F := fmtOf b32 with hF
  have hwide : F.Wide := FloatFmt.wide_fmtOf b32
  have hσ := FloatFmt.tiny_pos (F := F)
  have hσ' := FloatFmt.tiny_fmtOf b32
  rw [← hF] at hσ'
  have hε := FloatFmt.eps_pos (F := F)
  have hε' := FloatFmt.eps_le hwide
  have hNr : (N : ℝ) ≤ 100 := by exact_mod_cast hN
  have hN0 : (0 : ℝ) ≤ N := Nat.cast_nonneg N
  set S : ℝ := ∑ i ∈ Finset.range (N + 1), (if parity.keeps i then |h.coeff (terms.getD i default)| * W ^ i else 0) with hS
  have hS0 : 0 ≤ S := Finset.sum_nonneg fun i _ => by split_ifs <;> positivity
  have hT0 : 0 ≤ T := le_trans (by positivity) hT
  obtain ⟨ρ, hρ⟩ : ∃ ρ : ℝ, ρ = 1 + 1 / 10 ^ 5 := ⟨_, rfl⟩
  have hρN : ρ ^ N ≤ 1002 / 1000 := by
    calc ρ ^ N ≤ ρ ^ 100 := pow_le_pow_right₀ (by norm_num [hρ]) hN
      _ ≤ 1002 / 1000 := by norm_num [hρ]
  have hθ : (1 + F.eps) ^ N ≤ 2 := by
    have := FloatFmt.eps_pow hwide hN
    have h2 : 101 / 100 * N * F.eps ≤ 101 / 100 * 100 * (1 / 2 ^ 21) := by gcongr
    norm_num at h2
    linarith
  have hmaj : ∑ i ∈ Finset.range (N + 1), (if parity.keeps i then (|h.coeff (terms.getD i default)| + F.tiny) * (W * ρ) ^ i else 0) + F.tiny ≤ T := by
    have h1 : ∑ i ∈ Finset.range (N + 1), (if parity.keeps i then (|h.coeff (terms.getD i default)| + F.tiny) * (W * ρ) ^ i else 0) ≤
        ∑ i ∈ Finset.range (N + 1), (1002 / 1000) * ((if parity.keeps i then |h.coeff (terms.getD i default)| * W ^ i else 0) + F.tiny) := by
      refine Finset.sum_le_sum fun i hi => ?_
      have hi' : i ≤ N := by have := Finset.mem_range.1 hi; omega
      have hρi : ρ ^ i ≤ 1002 / 1000 := (pow_le_pow_right₀ (by norm_num [hρ]) hi').trans hρN
      have hWi : W ^ i ≤ 1 := pow_le_one₀ hW0.le hWle
      have hWi0 : 0 < W ^ i := by positivity
      split_ifs
      · rw [mul_pow]
        set c := |h.coeff (terms.getD i default)|
        have hc : 0 ≤ c := abs_nonneg _
        calc (c + F.tiny) * (W ^ i * ρ ^ i) = (c * W ^ i + F.tiny * W ^ i) * ρ ^ i := by ring
          _ ≤ (c * W ^ i + F.tiny) * (1002 / 1000) := by
              refine mul_le_mul ?_ hρi (by rw [hρ]; positivity) (by positivity)
              have := mul_le_mul_of_nonneg_left hWi hσ.le
              linarith
          _ = _ := by ring
      · positivity
    rw [← Finset.mul_sum, Finset.sum_add_distrib, Finset.sum_const, Finset.card_range, nsmul_eq_mul, ← hS] at h1
    push_cast at h1
    have h2 : S ≤ 1001 / 1000 * A' + 1 / 1000 * (N + 1) := by
      refine hsum.trans ?_
      have := mul_le_mul_of_nonneg_right hu hA0
      have := mul_le_mul_of_nonneg_right hw (by positivity : (0 : ℝ) ≤ N + 1)
      linarith
    have h3 : ((N : ℝ) + 1) * F.tiny ≤ (N + 1) * (1 / 2 ^ 126) := mul_le_mul_of_nonneg_left hσ' (by positivity)
    have h4 : (1 : ℝ) / 2 ^ 126 ≤ 1 / 10 ^ 6 := by norm_num
    have h5 : ((N : ℝ) + 1) * (1 / 2 ^ 126) ≤ (N + 1) * (1 / 10 ^ 6) := mul_le_mul_of_nonneg_left h4 (by positivity)
    have h6 : F.tiny ≤ 1 / 10 ^ 6 := hσ'.trans h4
    linarith
  obtain ⟨r, e, hr, he, hsp, P, hP⟩ := h.code_ieee terms s parity N hlen hp hsize (W := W + δ) (t := W * ρ) (T := T) (by linarith) hW1 (by
      have h1 : (1 : ℝ) / 2 ^ 126 ≤ 1 / 10 ^ 6 * (1 / 100) := by norm_num
      have h2 : (1 : ℝ) / 100 ≤ W * W := by nlinarith
      have h3 : W * ρ * (W * ρ) = W * W * (ρ * ρ) := by ring
      have h4 : 1 + 2 / 10 ^ 5 ≤ ρ * ρ := by norm_num [hρ]
      have h5 : W * W * (1 + 2 / 10 ^ 5) ≤ W * W * (ρ * ρ) := mul_le_mul_of_nonneg_left h4 (by positivity)
      have h6 : 1 / 10 ^ 6 * (1 / 100) ≤ 1 / 10 ^ 6 * (W * W) := mul_le_mul_of_nonneg_left h2 (by positivity)
      have h8 : (W + δ) * (W + δ) ≤ (W + W / 10 ^ 6) * (W + W / 10 ^ 6) := mul_le_mul (by linarith) (by linarith) (by linarith) (by positivity)
      have h9 : (W + W / 10 ^ 6) * (W + W / 10 ^ 6) = W * W * ((1 + 1 / 10 ^ 6) * (1 + 1 / 10 ^ 6)) := by ring
      rw [h3]
      have h7 : F.tiny ≤ 1 / 10 ^ 6 * (W * W) := hσ'.trans (h1.trans h6)
      rw [← hF]
      have h10 : (0 : ℝ) ≤ W * W := by positivity
      norm_num at *
      linarith) (by rw [hρ]; positivity) hmaj (by
      have h1 := FloatFmt.bias_fmtOf b32
      rw [← hF] at h1 ⊢
      calc (1 + F.eps) ^ N * T ≤ 2 * T := mul_le_mul_of_nonneg_right hθ hT0
        _ ≤ _ := hfin
        _ ≤ _ := mul_le_mul h1 (pow_le_pow_left₀ hW0.le (by linarith) _) (by positivity) (by positivity))
  rw [← hF] at hP
  refine ⟨r, e, hr, he, fun calls => ⟨⟨P, fun env x hx hm => (hP x (abs_le.2 hm)).1 calls env hx, fun x hx => ?_⟩, hsp hN1 calls⟩⟩
  have h1 := (hP x (abs_le.2 hx)).2
  have h2 := hnear x hx
  have h3 := mul_le_mul_of_nonneg_right (FloatFmt.eps_pow hwide hN) hT0
  have h4 := abs_add_le (P x - ∑ i ∈ Finset.range (N + 1), (if parity.keeps i then h.coeff (terms.getD i default) * x ^ i else 0))
    (∑ i ∈ Finset.range (N + 1), (if parity.keeps i then h.coeff (terms.getD i default) * x ^ i else 0) - f x)
  rw [sub_add_sub_cancel] at h4
  linarith

/-- The polynomial in the shipped code. -/
theorem LitOk.polynomialCode_ieee (h : IeeeOk fx b32 u w) (hu : u ≤ 1 / 1000) (hw : w ≤ 1 / 1000) (s : ApproxSpec) (lo hi : Dec) (N : ℕ) (hN : N ≤ 100)
    (hk : shippedTerms s.name b32 = N + 1)
    {r : Expr} {terms : List Dec} (hr : approx ext s.target (N + 1) lo hi [s.var] s.parity (configDigits b32) = .ok r)
    (hm : mulAddPolynomial terms [s.var] s.parity = .ok r) (hlen : terms.length = N + 1) (hp : s.parity.accepts (N + 1))
    {f : ℝ → ℝ} {ε W τ A A' T δ L : ℝ} (hlo : (lo.val : ℝ) = -W) (hhi : (hi.val : ℝ) = W) (hW : 1 / 10 ≤ W) (hδ0 : 0 ≤ δ) (hδ : δ ≤ W / 10 ^ 6) (hW1 : W + δ ≤ 1)
    (herr : ∀ t ∈ Set.Icc (lo.val : ℝ) hi.val, |∑ i ∈ Finset.range (N + 1), (if s.parity.keeps i then (valAt terms i : ℝ) * t ^ i else 0) - f t| ≤ ε)
    (hf : NearPoly f N W τ A) (hτ : 0 ≤ τ) (hA : A + 2 * (ε + τ) * ((24143 / 10000) ^ (N + 1) / (14142 / 10000)) ≤ A') (hA0 : 0 ≤ A') (hbig : A' ≤ 10 ^ 30 * W ^ N)
    (hT : 101 / 100 * A' + (N + 1) / 500 ≤ T) (hfin : 2 * T ≤ 2 ^ 127 * W ^ (N + 1))
    (hL : ∀ x c : ℝ, |x| ≤ W + δ → |c| ≤ W → |x - c| ≤ δ → |f c - f x| ≤ L * δ) (hN1 : 1 ≤ N := by norm_num) :
    ∃ e, polynomialCode ext fx b32 s lo hi = .ok e ∧
      ∀ calls, ApproxIE (ieeeInterp (fmtOf b32) calls) s.var e.toR f (Set.Icc (-(W + δ)) (W + δ))
        (ε + u * A' + w * (N + 1) + δ * (2 * N / W * ((1 + u) * A' + w * (N + 1)) + L) + 101 / 100 * N * T * (fmtOf b32).eps) := by
  rw [hlo, hhi] at herr
  have hε : 0 ≤ ε := (abs_nonneg _).trans (herr 0 ⟨by linarith, by linarith⟩)
  obtain ⟨r', e, h1, h2, h3⟩ := h.code_near_ieee hu hw terms s.var s.parity N hN hlen hp hW hδ0 hδ hW1 herr hf
    ((add_le_add_right (mul_le_mul_of_nonneg_left (silver_sum_le N) (by positivity)) A).trans hA) hA0 hbig hT hfin hL hN1
  rw [hm] at h1
  cases h1
  exact ⟨e, by rw [polynomialCode, hk, hr, Res.ok_bind, h2], h3⟩

/-- The same for a request with bounds in the table of requests. -/
theorem LitOk.polynomialCode_within_ieee (h : IeeeOk fx b32 u w) (hu : u ≤ 1 / 1000) (hw : w ≤ 1 / 1000) (s : ApproxSpec) {lo hi : Dec} (hb : s.bounds = some (lo, hi))
    {N : ℕ} (hN : N ≤ 100) (hk : shippedTerms s.name b32 = N + 1) {f : ℝ → ℝ} {ε : ℚ} (ht : WithinTerms ext s (N + 1) (configDigits b32) f ε)
    {W τ A A' T : ℝ} (hlo : (lo.val : ℝ) = -W) (hhi : (hi.val : ℝ) = W) (hW : 1 / 10 ≤ W) (hW1 : W ≤ 1)
    (hf : NearPoly f N W τ A) (hτ : 0 ≤ τ) (hA : A + 2 * (ε + τ) * ((24143 / 10000) ^ (N + 1) / (14142 / 10000)) ≤ A') (hA0 : 0 ≤ A') (hbig : A' ≤ 10 ^ 30 * W ^ N)
    (hT : 101 / 100 * A' + (N + 1) / 500 ≤ T) (hfin : 2 * T ≤ 2 ^ 127 * W ^ (N + 1)) (hN1 : 1 ≤ N := by norm_num) :
    ∃ e, polynomialCode ext fx b32 s lo hi = .ok e ∧
      ∀ calls, ApproxIE (ieeeInterp (fmtOf b32) calls) s.var e.toR f (Set.Icc (-W) W) (ε + u * A' + w * (N + 1) + 101 / 100 * N * T * (fmtOf b32).eps) := by
  obtain ⟨lo', hi', r, terms, h1, h2, h3, h4, -, h6, h7⟩ := ht
  rw [hb] at h1
  cases h1
  have := h.polynomialCode_ieee (δ := 0) (L := 0) hu hw s lo hi N hN hk h2 h3 h4 h6 hlo hhi hW le_rfl (by positivity) (by simpa using hW1) h7 hf hτ hA hA0 hbig hT hfin
    (fun x c _ _ hxc => by
      have : x - c = 0 := abs_nonpos_iff.1 hxc
      rw [sub_eq_zero.1 this]; simp) hN1
  simpa using this

end
end Verif

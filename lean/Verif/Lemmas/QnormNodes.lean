import Mathlib.Analysis.Real.Pi.Bounds
import Verif.Lemmas.NormalNumbers
import Verif.Lemmas.SeriesError
import Verif.Props.Accuracy

/-!
# The numbers behind the 64-bit `qnorm`

The nodes of the 32-term approximation (`stats_norm.rs:44`), the quantiles there, and the odd polynomial through them, as decimal numbers checked by the kernel.
-/

namespace Verif
open Bd Dec Polynomial

/-! ## The distribution function to many digits -/

namespace Bd

theorem cdfTerm_antitone_from {t : ℝ} (h0 : 0 ≤ t) (m : ℕ) (h : t ≤ m + 1) : Antitone fun k => cdfTerm t (m + k) := by
  refine antitone_nat_of_succ_le fun j => ?_
  set k := m + j with hk
  have hkm : (m : ℝ) ≤ k := by exact_mod_cast (by omega : m ≤ k)
  have hf : (0 : ℝ) < Nat.factorial k := by positivity
  have e : cdfTerm t (k + 1) = cdfTerm t k * (t * (2 * k + 1) / ((k + 1) * (2 * k + 3))) := by
    unfold cdfTerm
    rw [Nat.factorial_succ]; push_cast; field_simp; ring
  show cdfTerm t (k + 1) ≤ cdfTerm t k
  rw [e]
  refine mul_le_of_le_one_right (by unfold cdfTerm; positivity) ?_
  rw [div_le_one (by positivity)]
  have hk0 : (0 : ℝ) ≤ k := by positivity
  nlinarith

/-- From the place on where the terms decrease, partial sums enclose the value. -/
theorem cdf_series_from {u : ℝ} (h0 : 0 ≤ u) (m : ℕ) (h : u ^ 2 / 2 ≤ (2 * m : ℕ) + 1) : ∃ L, normalCdf u = 1 / 2 + u * L / √(2 * Real.pi) ∧
    ∑ i ∈ Finset.range (2 * m), (-1) ^ i * cdfTerm (u ^ 2 / 2) i ≤ L ∧ L ≤ ∑ i ∈ Finset.range (2 * m + 1), (-1) ^ i * cdfTerm (u ^ 2 / 2) i := by
  have h2 : (0 : ℝ) < √2 := by positivity
  have hp : (0 : ℝ) < √Real.pi := Real.sqrt_pos.2 Real.pi_pos
  have hsq : (u / √2) ^ 2 = u ^ 2 / 2 := by rw [div_pow, Real.sq_sqrt (by norm_num)]
  obtain ⟨L, hL, hv⟩ := hasSum_erf (u / √2)
  have e : (fun j => (erfC j : ℝ) * ((u / √2) ^ 2) ^ j) = fun j => (-1) ^ j * cdfTerm (u ^ 2 / 2) j := by
    funext j; rw [erfC_real, hsq, cdfTerm]; ring
  rw [e] at hL
  have hL' := (hasSum_nat_add_iff' (2 * m)).2 hL
  have e2 : (fun j => (-1) ^ (j + 2 * m) * cdfTerm (u ^ 2 / 2) (j + 2 * m)) = fun j => (-1) ^ j * cdfTerm (u ^ 2 / 2) (2 * m + j) := by
    funext j; rw [pow_add, pow_mul, add_comm j]; norm_num
  rw [e2] at hL'
  have hanti := cdfTerm_antitone_from (t := u ^ 2 / 2) (by positivity) (2 * m) h
  have a1 := hanti.alternating_series_le_tendsto hL'.tendsto_sum_nat 0
  have a2 := hanti.tendsto_le_alternating_series hL'.tendsto_sum_nat 0
  simp only [mul_zero, Finset.range_zero, Finset.sum_empty, zero_add, Finset.range_one, Finset.sum_singleton, pow_zero, one_mul, add_zero] at a1 a2
  refine ⟨L, ?_, by linarith, ?_⟩
  · rw [normalCdf_eq, ← hv, sqrt_two_pi]; field_simp
  · rw [Finset.sum_range_succ, pow_mul]; norm_num; linarith

theorem root_two_pi_fine : (2.506628274631000502 : ℝ) ≤ √(2 * Real.pi) ∧ √(2 * Real.pi) ≤ 2.506628274631000503 := by
  constructor
  · exact Real.le_sqrt_of_sq_le (by norm_num; linarith [Real.pi_gt_d20])
  · exact Real.sqrt_le_iff.2 ⟨by norm_num, by norm_num; linarith [Real.pi_lt_d20]⟩

/-- The partial sums, in rational numbers. -/
def cdfPart (v : ℚ) (K : ℕ) : ℚ := ∑ i ∈ Finset.range K, (-1) ^ i * (v ^ i / ((2 * i + 1) * (Nat.factorial i : ℚ)))

theorem cdfPart_cast (v : ℚ) (K : ℕ) : (cdfPart v K : ℝ) = ∑ i ∈ Finset.range K, (-1) ^ i * cdfTerm v i := by
  unfold cdfPart cdfTerm
  push_cast
  rfl

/-- `r ≤ Φ(u)`, as a computation with rational numbers. -/
def CdfAbove (u r : ℚ) (m : ℕ) : Prop :=
  0 ≤ u ∧ u ^ 2 / 2 ≤ (2 * m : ℕ) + 1 ∧ 1 / 2 ≤ r ∧ (r - 1 / 2) * 2.506628274631000503 ≤ u * cdfPart (u ^ 2 / 2) (2 * m)
/-- `Φ(u) ≤ r`, as a computation with rational numbers. -/
def CdfBelow (u r : ℚ) (m : ℕ) : Prop :=
  0 ≤ u ∧ u ^ 2 / 2 ≤ (2 * m : ℕ) + 1 ∧ 1 / 2 ≤ r ∧ u * cdfPart (u ^ 2 / 2) (2 * m + 1) ≤ (r - 1 / 2) * 2.506628274631000502

instance (u r : ℚ) (m : ℕ) : Decidable (CdfAbove u r m) := by unfold CdfAbove; infer_instance
instance (u r : ℚ) (m : ℕ) : Decidable (CdfBelow u r m) := by unfold CdfBelow; infer_instance

theorem CdfAbove.le {u r : ℚ} {m : ℕ} (h : CdfAbove u r m) : (r : ℝ) ≤ normalCdf u := by
  obtain ⟨h0, h1, h2, h3⟩ := h
  have h0' := (Rat.cast_le (K := ℝ)).2 h0
  have h1' := (Rat.cast_le (K := ℝ)).2 h1
  have h2' := (Rat.cast_le (K := ℝ)).2 h2
  have h3' := (Rat.cast_le (K := ℝ)).2 h3
  push_cast [cdfPart_cast] at h0' h1' h2' h3'
  obtain ⟨L, hL, hl, -⟩ := cdf_series_from h0' m (by push_cast; exact h1')
  have hs := root_two_pi_fine
  have hs0 : 0 < √(2 * Real.pi) := by linarith
  have : (r : ℝ) - 1 / 2 ≤ u * L / √(2 * Real.pi) := by
    rw [le_div_iff₀ hs0]
    calc ((r : ℝ) - 1 / 2) * √(2 * Real.pi) ≤ (r - 1 / 2) * 2.506628274631000503 := mul_le_mul_of_nonneg_left hs.2 (by linarith)
      _ ≤ _ := h3'
      _ ≤ u * L := mul_le_mul_of_nonneg_left hl h0'
  rw [hL]; linarith

theorem CdfBelow.le {u r : ℚ} {m : ℕ} (h : CdfBelow u r m) : normalCdf u ≤ r := by
  obtain ⟨h0, h1, h2, h3⟩ := h
  have h0' := (Rat.cast_le (K := ℝ)).2 h0
  have h1' := (Rat.cast_le (K := ℝ)).2 h1
  have h2' := (Rat.cast_le (K := ℝ)).2 h2
  have h3' := (Rat.cast_le (K := ℝ)).2 h3
  push_cast [cdfPart_cast] at h0' h1' h2' h3'
  obtain ⟨L, hL, -, hl⟩ := cdf_series_from h0' m (by push_cast; exact h1')
  have hs := root_two_pi_fine
  have hs0 : 0 < √(2 * Real.pi) := by linarith
  have : u * L / √(2 * Real.pi) ≤ (r : ℝ) - 1 / 2 := by
    rw [div_le_iff₀ hs0]
    calc u * L ≤ u * _ := mul_le_mul_of_nonneg_left hl h0'
      _ ≤ _ := h3'
      _ ≤ ((r : ℝ) - 1 / 2) * √(2 * Real.pi) := mul_le_mul_of_nonneg_left hs.1 (by linarith)
  rw [hL]; linarith

end Bd

/-! ## The tables -/

/-- The coefficients of `x`, `x ^ 3`, ..., `x ^ 31`, in units of `10 ^ -14`. -/
def qnormInts : List ℤ :=
  [-62669322274151, 191984022681484, -2086778538064883, 275550181809178991, -17952024506743324538, 702793497140619311674, -17908290092959185584093,
   312096482277930806982169, -3833516297947727577588013, 33724851675770587351204538, -213347644297178478989092334, 962248410327704868857326395,
   -3018148539996395190730876977, 6253878047729930233329595959, -7694432096914958859988651827, 4255811868576500734099425717]

/-- The nodes in the right half, in units of `10 ^ -20`. -/
def qnormNodes : List ℤ :=
  [2531951950247248487, 7569874597453787416, 12530120087613439760, 17361789589712566074, 22015303636366139133, 26442910876244853244,
   30599178067557665579, 34441456284593571524, 37930318553412617187, 41029964425951743555, 43708587341067660120, 45938701002895329150,
   47697421427438442085, 48966701763212199752, 49733517476360838365, 49990000000000000000]

/-- The quantiles there, in units of `10 ^ -12`. -/
def qnormQuantiles : List ℤ :=
  [63509291048, 190901827905, 319433780660, 449925433139, 583296189485, 720622539270, 863220146944, 1012768239812, 1171510527006, 1342602527614,
   1530761883442, 1743616524395, 1994920315116, 2314032039332, 2786403374677, 3719016485456]

/-- The angles of the nodes, in units of `10 ^ -22`. -/
def qnormAngles : List ℤ :=
  [0, 1013416985028965560794, 2026833970057931121589, 3040250955086896682383, 4053667940115862243178, 5067084925144827803972, 6080501910173793364766,
   7093918895202758925561, 8107335880231724486355, 9120752865260690047150, 10134169850289655607944, 11147586835318621168738, 12161003820347586729533,
   13174420805376552290327, 14187837790405517851122, 15201254775434483411916, 16214671760463448972710, 17228088745492414533505,
   18241505730521380094299, 19254922715550345655094, 20268339700579311215888, 21281756685608276776682, 22295173670637242337477,
   23308590655666207898271, 24322007640695173459066, 25335424625724139019860, 26348841610753104580654, 27362258595782070141449,
   28375675580811035702243, 29389092565840001263038, 30402509550868966823832, 31415926535897932384626]

def qnormC (j : ℕ) : ℚ := (qnormInts.getD j 0 : ℚ) / 10 ^ 14
def qnormX (j : ℕ) : ℚ := (qnormNodes.getD j 0 : ℚ) / 10 ^ 20
def qnormT (j : ℕ) : ℚ := (qnormQuantiles.getD j 0 : ℚ) / 10 ^ 12
/-- Node `i` of the 32: the left half mirrors the right half. -/
def qnormXs (i : ℕ) : ℚ := if i < 16 then -qnormX (15 - i) else qnormX (i - 16)
def qnormTs (i : ℕ) : ℚ := if i < 16 then -qnormT (15 - i) else qnormT (i - 16)

/-- The odd polynomial with these coefficients. -/
noncomputable def qnormPoly (t : ℝ) : ℝ := ∑ j ∈ Finset.range 16, (qnormC j : ℝ) * t ^ (2 * j + 1)
def qnormPolyQ (t : ℚ) : ℚ := ∑ j ∈ Finset.range 16, qnormC j * t ^ (2 * j + 1)

theorem qnormPolyQ_cast (t : ℚ) : (qnormPolyQ t : ℝ) = qnormPoly t := by
  unfold qnormPolyQ qnormPoly; push_cast; rfl

theorem qnormPoly_neg (t : ℝ) : qnormPoly (-t) = -qnormPoly t := by
  unfold qnormPoly
  rw [← Finset.sum_neg_distrib]
  refine Finset.sum_congr rfl fun j _ => ?_
  rw [Odd.neg_pow ⟨j, rfl⟩]; ring

/-! ## What the kernel checks -/

/-- The cosines. -/
theorem qnorm_cos : ∀ i < 32, ∃ d, Bd.cos ⟨qnormAngles.getD i 0, 22⟩ 22 = .ok d ∧ |4999 / 10000 * d.val + qnormXs i| ≤ 2 / 10 ^ 20 := by
  have : ∀ i < 32, (match Bd.cos ⟨qnormAngles.getD i 0, 22⟩ 22 with | .ok d => decide (|4999 / 10000 * d.val + qnormXs i| ≤ 2 / 10 ^ 20) | _ => false) = true := by
    decide +kernel
  intro i hi
  have h := this i hi
  split at h
  · rename_i d hd
    exact ⟨d, hd, by simpa using h⟩
  · exact absurd h (by simp)

theorem qnorm_angles : ∀ i < 32, |(qnormAngles.getD i 0 : ℚ) / 10 ^ 22 - 3.14159265358979323846 * i / 31| ≤ 1 / 10 ^ 20 ∧
    |(⟨qnormAngles.getD i 0, 22⟩ : Dec).val| ≤ 4 := by decide +kernel

/-- The quantiles. -/
theorem qnorm_quantiles : ∀ j < 16, CdfBelow (qnormT j - 1 / 10 ^ 10) (qnormX j + 1 / 2 - 1 / 10 ^ 18) 26 ∧
    CdfAbove (qnormT j + 1 / 10 ^ 10) (qnormX j + 1 / 2 + 1 / 10 ^ 18) 26 := by decide +kernel

/-- The polynomial. -/
theorem qnorm_fit : ∀ j < 16, |qnormPolyQ (qnormX j) - qnormT j * (qnormX j ^ 2 - 1 / 4)| ≤ 1 / 10 ^ 12 := by decide +kernel

theorem qnorm_sums : ∑ j ∈ Finset.range 16, |qnormC j| * (4999 / 10000) ^ (2 * j + 1) ≤ 4728352 ∧
    ∑ j ∈ Finset.range 16, |qnormC j| * ((2 * j + 1) * (1 / 2) ^ (2 * j)) ≤ 3 * 10 ^ 8 ∧
    ∑ j ∈ Finset.range 16, |qnormC j| * (4999 / 10000 + 1 / 2) ^ (2 * j + 1) ≤ 3 * 10 ^ 14 := by decide +kernel

end Verif

import Verif.Props.TestIeee
import Verif.Lemmas.EncPoly

/-!
A sharper sufficient condition for passing an accuracy test: the reference value in the table costs half a unit in its last place, not a relative half unit.
-/

namespace Verif

section
variable {b32 : Bool}

/-- The measured error of one row with the rounding error of the reference value kept apart. -/
theorem measured_sharp {c y e : ℝ} (hc : |c| ≤ 2 ^ 90) (hy : |y| ≤ 101) (he : |e| ≤ 1) :
    ∃ m, refErrorIE (fmtOf b32) (.f c) ((fmtOf b32).rne y) ((fmtOf b32).rne e) = .f m ∧
      |m - (|c - (y + e)|)| ≤ (1 + 3 * (fmtOf b32).eps) * |(fmtOf b32).rnd y - y| + (fmtOf b32).eps * (3 * |c - (y + e)| + 4 * |e| + 8 * (fmtOf b32).tiny) := by
  have hε0 := FloatFmt.eps_pos (F := fmtOf b32)
  have hε1 := eps_fmtOf b32
  have hτ0 := FloatFmt.tiny_pos (F := fmtOf b32)
  have hτ1 := FloatFmt.tiny_le (FloatFmt.wide_fmtOf b32)
  norm_num at hε1 hτ1
  rw [rne_small (hy.trans (by norm_num)), rne_small (he.trans (by norm_num))]
  have e1 := FloatFmt.rnd_err (F := fmtOf b32) y
  have e2 := FloatFmt.rnd_err (F := fmtOf b32) e
  obtain ⟨ε, hε⟩ : ∃ ε, ε = (fmtOf b32).eps := ⟨_, rfl⟩
  obtain ⟨τ, hτ⟩ : ∃ τ, τ = (fmtOf b32).tiny := ⟨_, rfl⟩
  rw [← hε] at hε0 hε1
  rw [← hτ] at hτ0 hτ1
  generalize (fmtOf b32).rnd y = Y at *
  generalize (fmtOf b32).rnd e = E at *
  rw [← hε, ← hτ] at e1 e2 ⊢
  have hY : |Y| ≤ 102 := by
    have := abs_sub_abs_le_abs_sub Y y
    nlinarith [abs_nonneg y]
  have hE : |E| ≤ 2 := by
    have := abs_sub_abs_le_abs_sub E e
    nlinarith [abs_nonneg e]
  have hcY : |c - Y| ≤ 2 ^ 91 := by
    have := abs_sub c Y
    norm_num at hc ⊢; linarith
  have e3 := FloatFmt.rnd_err (F := fmtOf b32) (c - Y)
  rw [← hε, ← hτ] at e3
  simp only [refErrorIE, binIE_sub, rne_small (hcY.trans (by norm_num))]
  generalize (fmtOf b32).rnd (c - Y) = S at *
  have hS : |S| ≤ 2 ^ 92 := by
    have h1 := abs_sub_abs_le_abs_sub S (c - Y)
    have h2 : ε * (|c - Y| + τ) ≤ 1 / 2 * (|c - Y| + τ) := by gcongr; linarith
    norm_num at hcY ⊢; linarith
  have hSE : |S - E| ≤ 2 ^ 93 := by
    have := abs_sub S E
    norm_num at hS ⊢; linarith
  have e4 := FloatFmt.rnd_err (F := fmtOf b32) (S - E)
  rw [← hε, ← hτ] at e4
  rw [rne_small (hSE.trans (by norm_num)), methIE_abs]
  generalize (fmtOf b32).rnd (S - E) = m at *
  refine ⟨_, rfl, ?_⟩
  clear hcY hS hSE hc hY hE e1
  refine (abs_abs_sub_abs_le _ _).trans ?_
  obtain ⟨D, hD⟩ : ∃ D, D = |c - (y + e)| := ⟨_, rfl⟩
  obtain ⟨η, hη⟩ : ∃ η, η = |Y - y| := ⟨_, rfl⟩
  have hD0 : 0 ≤ D := hD ▸ abs_nonneg _
  have hη0 : 0 ≤ η := hη ▸ abs_nonneg _
  have f1 : |c - Y| ≤ D + |e| + η := by
    calc |c - Y| = |(c - (y + e)) + e - (Y - y)| := by congr 1; ring
      _ ≤ |(c - (y + e)) + e| + |Y - y| := abs_sub _ _
      _ ≤ |c - (y + e)| + |e| + η := add_le_add (abs_add_le _ _) hη.ge
      _ = _ := by rw [hD]
  have f2 : |S - (c - Y)| ≤ ε * (D + |e| + η + τ) := e3.trans (by gcongr)
  have f3 : |S - E - (c - (y + e))| ≤ ε * (D + |e| + η + τ) + η + ε * (|e| + τ) := by
    calc |S - E - (c - (y + e))| = |(S - (c - Y)) - (Y - y) - (E - e)| := by congr 1; ring
      _ ≤ |(S - (c - Y)) - (Y - y)| + |E - e| := abs_sub _ _
      _ ≤ |S - (c - Y)| + |Y - y| + |E - e| := by gcongr; exact abs_sub _ _
      _ ≤ _ := by rw [← hη]; gcongr
  have f4 : |S - E| ≤ D + (ε * (D + |e| + η + τ) + η + ε * (|e| + τ)) := by
    calc |S - E| = |(c - (y + e)) + (S - E - (c - (y + e)))| := by congr 1; ring
      _ ≤ _ := (abs_add_le _ _).trans (add_le_add hD.ge f3)
  have f5 : |m - (c - (y + e))| ≤ ε * (|S - E| + τ) + (ε * (D + |e| + η + τ) + η + ε * (|e| + τ)) := by
    calc |m - (c - (y + e))| = |(m - (S - E)) + (S - E - (c - (y + e)))| := by congr 1; ring
      _ ≤ _ := (abs_add_le _ _).trans (add_le_add e4 f3)
  rw [← hD, ← hη]
  refine f5.trans ?_
  have he0 := abs_nonneg e
  generalize |e| = e' at *
  have k2 : ε * (e' + τ) ≤ 1 / 10 ^ 4 * (e' + τ) := by gcongr; norm_num; linarith
  have k3 : ε * (D + e' + η + τ) ≤ 1 / 10 ^ 4 * (D + e' + η + τ) := by gcongr; norm_num; linarith
  have k4 : ε * (|S - E| + τ) ≤ ε * (D + (1 / 10 ^ 4 * (D + e' + η + τ) + η + 1 / 10 ^ 4 * (e' + τ)) + τ) := by
    gcongr
    exact f4.trans (by gcongr)
  have p1 := mul_nonneg hε0.le hD0
  have p2 := mul_nonneg hε0.le hη0
  have p3 := mul_nonneg hε0.le he0
  have p4 := mul_nonneg hε0.le hτ0.le
  clear k2 k3 e2 e3 e4 f1 f2 f3 f4 f5 hD hη
  norm_num at k4
  linarith

/-- One row, in terms of the true value. -/
theorem row_sharp {dy de c V : ℝ} (hc : |c| ≤ 2 ^ 90) (h1 : |dy + de - V| ≤ 5200 / 10 ^ configDigits b32) (h2 : |de| ≤ 2 / 10 ^ 6 * (|V| + 1)) (h3 : |V| ≤ 99) :
    |dy - V| ≤ 3 / 10 ^ 6 * (|V| + 1) ∧
    ∃ m, refErrorIE (fmtOf b32) (.f c) ((fmtOf b32).rne dy) ((fmtOf b32).rne de) = .f m ∧
      m ≤ (1 + 3 * (fmtOf b32).eps) * (|c - V| + |(fmtOf b32).rnd dy - dy|) + (fmtOf b32).eps / 100 := by
  have hδ := table_error b32
  have hε0 := FloatFmt.eps_pos (F := fmtOf b32)
  have hε1 := eps_fmtOf b32
  have hτ1 := FloatFmt.tiny_le (FloatFmt.wide_fmtOf b32)
  have hV0 := abs_nonneg V
  have he1 : |de| ≤ 1 := h2.trans (by norm_num; linarith)
  have hd : |dy - V| ≤ |de| + 1 / 1000 * (fmtOf b32).eps := by
    calc |dy - V| = |(dy + de - V) - de| := by congr 1; ring
      _ ≤ |dy + de - V| + |de| := abs_sub _ _
      _ ≤ _ := by linarith
  norm_num at h2 hε1 hτ1
  have hy : |dy| ≤ 101 := by
    have := abs_sub_abs_le_abs_sub dy V
    linarith
  obtain ⟨m, hm, hb⟩ := measured_sharp (b32 := b32) (c := c) (y := dy) (e := de) hc hy he1
  refine ⟨by norm_num; linarith, m, hm, ?_⟩
  have hη := abs_nonneg ((fmtOf b32).rnd dy - dy)
  generalize (fmtOf b32).eps = ε at *
  generalize (fmtOf b32).tiny = τ at *
  generalize |(fmtOf b32).rnd dy - dy| = η at *
  have k := h1.trans hδ
  have k1 : |c - (dy + de)| ≤ |c - V| + 1 / 1000 * ε := by
    calc |c - (dy + de)| = |(c - V) - (dy + de - V)| := by congr 1; ring
      _ ≤ _ := (abs_sub _ _).trans (by linarith)
  have k3 : ε * (3 * |c - (dy + de)| + 4 * |de| + 8 * τ) ≤ ε * (3 * |c - V| + 1 / 200) := by
    refine mul_le_mul_of_nonneg_left ?_ hε0.le
    norm_num; linarith
  have := (abs_le.1 hb).2
  linarith

end

/-- The rows of a test of the library as decimals. -/
theorem test_rows_data {ext : BdExt} (hs : SqrtOk ext) (hf : 600 ≤ ext.fuel) (hr : RoundsNear ext) (b32 : Bool) (s : TestSpec) (hm : s ∈ testSpecs)
    (tmin tmax : Expr) (k32 k64 : ℚ) (N : ℕ) (ht : s.test = .maxAbs tmin tmax k32 k64 N) :
    ∃ rows V a b, ∃ dx dy de : ℕ → Dec, testRows ext b32 s.ref tmin tmax N = .ok rows ∧ (s.name, some (V, a, b)) ∈ testMeaning ∧
      rows = (List.range N).map (fun i => (exprOfDec (dx i), exprOfDec (dy i), exprOfDec (de i))) ∧
      ∀ i < N, |((dx i).val : ℝ) - (a + i * (b - a) / N)| ≤ 2 / 10 ^ 5 ∧ |(((dy i).val + (de i).val : ℚ) : ℝ) - V (dx i).val| ≤ 5200 / 10 ^ configDigits b32 ∧
        |((de i).val : ℝ)| ≤ 2 / 10 ^ 6 * (|V (dx i).val| + 1) ∧ |V (dx i).val| ≤ 99 ∧ |((dx i).val : ℝ)| ≤ 12 ∧
        sampleRow ext (configDigits b32) (if b32 then 32 else 64) s.ref tmin tmax N i = .ok (exprOfDec (dx i), exprOfDec (dy i), exprOfDec (de i)) := by
  obtain ⟨⟨nm, o⟩, hmem, hname, h⟩ := forall2_pick (C90_rows hs hf hr b32) hm
  rw [ht] at h
  simp only at hname
  obtain ⟨V, a, b, rfl, h⟩ : ∃ V a b, o = some (V, a, b) ∧ RowsRight ext b32 s.ref tmin tmax N V a b := by
    revert h
    cases o with
    | none => exact False.elim
    | some p => exact fun h => ⟨p.1, p.2.1, p.2.2, rfl, h⟩
  obtain ⟨rows, h1, h2⟩ := foldlM_rows (fun i => sampleRow ext (configDigits b32) (if b32 then 32 else 64) s.ref tmin tmax N i) (List.range N)
    (fun i hi => by obtain ⟨dx, dy, de, h1, _⟩ := h i (List.mem_range.1 hi); exact ⟨_, h1⟩) []
  rw [List.nil_append] at h1
  choose! dx dy de g1 g2 g3 g4 g5 g6 g7 g8 g9 using h
  have hrows : rows = (List.range N).map fun i => (exprOfDec (dx i), exprOfDec (dy i), exprOfDec (de i)) := by
    have h3 : List.Forall₂ (fun i a => (exprOfDec (dx i), exprOfDec (dy i), exprOfDec (de i)) = a) (List.range N) rows := by
      rw [List.forall₂_iff_get] at h2 ⊢
      refine ⟨h2.1, fun i hi hi' => ?_⟩
      have h4 := h2.2 i hi hi'
      have hiN : i < N := by simpa using hi
      simp only [List.get_eq_getElem, List.getElem_range] at h4 ⊢
      rw [g1 i hiN] at h4
      exact Res.ok.inj h4
    rw [← List.forall₂_map_left_iff, List.forall₂_eq_eq_eq] at h3
    exact h3.symm
  exact ⟨rows, V, a, b, dx, dy, de, h1, by rw [hname]; exact hmem, hrows, fun i hi => ⟨g5 i hi, g6 i hi, g7 i hi, g8 i hi, g9 i hi, g1 i hi⟩⟩

/-- If at each sample the error of the function and the rounding error of the reference value together stay below the limit, then the test passes. -/
theorem passes_of_close {ext : BdExt} (hs : SqrtOk ext) (hf : 600 ≤ ext.fuel) (hr : RoundsNear ext) (b32 : Bool) (s : TestSpec) (hm : s ∈ testSpecs)
    (tmin tmax : Expr) (k32 k64 : ℚ) (N : ℕ) (ht : s.test = .maxAbs tmin tmax k32 k64 N) :
    ∃ rows V a b, testRows ext b32 s.ref tmin tmax N = .ok rows ∧ (s.name, some (V, a, b)) ∈ testMeaning ∧ ∃ x : ℕ → ℝ, (∀ i < N, |x i - (a + i * (b - a) / N)| ≤ 2 / 10 ^ 5) ∧
      ∀ f : RV → RV,
        (∀ i < N, ∃ c μ, f (.f ((fmtOf b32).rnd (x i))) = .f c ∧ (∀ y, |y - V (x i)| ≤ 3 / 10 ^ 6 * (|V (x i)| + 1) → |(fmtOf b32).rnd y - y| ≤ μ) ∧
          (1 + 3 * (fmtOf b32).eps) * (|c - V (x i)| + μ) + (fmtOf b32).eps / 100 ≤ ((accuracyLimit b32 k32 k64 : ℚ) : ℝ)) →
        TestPassesIE (fmtOf b32) (rows.map (rowIE (fmtOf b32))) (limitIE b32 k32 k64) f := by
  obtain ⟨rows, V, a, b, dx, dy, de, h1, hmem, hrows, g⟩ := test_rows_data hs hf hr b32 s hm tmin tmax k32 k64 N ht
  have hL := limit_le b32 s hm _ _ _ _ _ ht
  refine ⟨rows, V, a, b, h1, hmem, fun i => ((dx i).val : ℝ), fun i hi => (g i hi).1, fun f hp => ?_⟩
  have hL1 : ((accuracyLimit b32 k32 k64 : ℚ) : ℝ) ≤ 1 := by rw [← Rat.cast_one (α := ℝ)]; exact Rat.cast_le.2 hL.2
  have hε0 : 0 < (fmtOf b32).eps := FloatFmt.eps_pos
  have hx11 : ∀ i < N, |((dx i).val : ℝ)| ≤ 2 ^ 100 := fun i hi => (g i hi).2.2.2.2.1.trans (by norm_num)
  have hrow : ∀ i < N, ∃ m, refErrorIE (fmtOf b32) (f (.f ((fmtOf b32).rnd ((dx i).val : ℝ)))) ((fmtOf b32).rne ((dy i).val : ℝ)) ((fmtOf b32).rne ((de i).val : ℝ)) = .f m ∧
      m ≤ ((accuracyLimit b32 k32 k64 : ℚ) : ℝ) := by
    intro i hi
    obtain ⟨c, μ, hc, hμ, hle⟩ := hp i hi
    obtain ⟨-, q1, q2, q3, -⟩ := g i hi
    push_cast at q1
    have hμ0 : 0 ≤ μ := (abs_nonneg _).trans (hμ (V (dx i).val) (by rw [sub_self, abs_zero]; positivity))
    have hD := abs_nonneg (c - V (dx i).val)
    have hsm : |c| ≤ 2 ^ 90 := by
      have h6 : |c - V (dx i).val| ≤ 1 := by
        nlinarith [mul_nonneg hε0.le hD, mul_nonneg hε0.le hμ0]
      have := abs_sub_abs_le_abs_sub c (V (dx i).val)
      norm_num; linarith
    obtain ⟨hn, m, hm, hb⟩ := row_sharp (b32 := b32) hsm q1 q2 q3
    rw [hc]
    refine ⟨m, hm, hb.trans (le_trans ?_ hle)⟩
    have := hμ _ hn
    gcongr
  show TestPassesIE _ _ (.f _) _
  rw [C92_passes_iff _ _ _ (Rat.cast_nonneg.2 hL.1), hrows, List.map_map]
  · simp only [List.mem_map, List.mem_range, forall_exists_index, and_imp, forall_apply_eq_imp_iff₂, Function.comp, rowIE, emittedIE_dec]
    intro i hi
    rw [rne_small (hx11 i hi)]
    exact .inr (hrow i hi)
  · intro r hr'
    rw [hrows, List.map_map] at hr'
    obtain ⟨i, hi, rfl⟩ := List.mem_map.1 hr'
    have hi' := List.mem_range.1 hi
    simp only [Function.comp, rowIE, emittedIE_dec, rne_small (hx11 i hi')]
    obtain ⟨m, hm, -⟩ := hrow i hi'
    rw [hm]; constructor

/-- The computable condition: the value lies in the enclosure `R`, whose exact number is within `d` of the reference value. -/
def passEnc (ε lim : ℚ) (R : Enc) (d : ℚ) : Bool :=
  R.ok && decide ((1 + 3 * ε) * (R.err + d + Enc.pow2 ((R.mag + d) * (1 + 3 / 10 ^ 6) + 3 / 10 ^ 6) * ε / 2) + ε / 100 ≤ lim)

theorem passEnc_ok {ε lim : ℚ} {R : Enc} {d : ℚ} (h : passEnc ε lim R d = true) : R.ok = true := by
  simp only [passEnc, Bool.and_eq_true] at h
  exact h.1

/-- An accuracy test passes when an enclosure of the value at each sample satisfies the computable condition. -/
theorem passes_of_enc {ext : BdExt} (hs : SqrtOk ext) (hf : 600 ≤ ext.fuel) (hr : RoundsNear ext) (b32 : Bool) (s : TestSpec) (hm : s ∈ testSpecs)
    (tmin tmax : Expr) (k32 k64 : ℚ) (N : ℕ) (ht : s.test = .maxAbs tmin tmax k32 k64 N) {ε : ℚ} (hε : (fmtOf b32).eps = ε) :
    ∃ rows V a b, testRows ext b32 s.ref tmin tmax N = .ok rows ∧ (s.name, some (V, a, b)) ∈ testMeaning ∧ ∃ x : ℕ → ℝ, (∀ i < N, |x i - (a + i * (b - a) / N)| ≤ 2 / 10 ^ 5) ∧
      ∀ f : RV → RV,
        (∀ i < N, ∃ R d y q, f (.f ((fmtOf b32).rnd (x i))) = .f y ∧ R.Of y q ∧ |q - V (x i)| ≤ (d : ℚ) ∧ passEnc ε (accuracyLimit b32 k32 k64) R d = true) →
        TestPassesIE (fmtOf b32) (rows.map (rowIE (fmtOf b32))) (limitIE b32 k32 k64) f := by
  obtain ⟨rows, V, a, b, h1, h2, x, h3, h4⟩ := passes_of_close hs hf hr b32 s hm tmin tmax k32 k64 N ht
  refine ⟨rows, V, a, b, h1, h2, x, h3, fun f hp => h4 f fun i hi => ?_⟩
  obtain ⟨R, d, y, q, k1, k2, k3, k4⟩ := hp i hi
  simp only [passEnc, Bool.and_eq_true, decide_eq_true_eq] at k4
  have k5 := Rat.cast_le (K := ℝ).2 k4.2
  push_cast at k5
  rw [← hε] at k5
  have hε0 := FloatFmt.eps_pos (F := fmtOf b32)
  refine ⟨y, (Enc.pow2 ((R.mag + d) * (1 + 3 / 10 ^ 6) + 3 / 10 ^ 6) : ℝ) * (fmtOf b32).eps / 2, k1, fun z hz => ?_, le_trans ?_ k5⟩
  · have hV : |V (x i)| ≤ R.mag + d := by
      have := abs_sub_abs_le_abs_sub (V (x i)) q
      rw [abs_sub_comm] at this
      linarith [k2.abs_le]
    have hz' : |z| ≤ (Enc.pow2 ((R.mag + d) * (1 + 3 / 10 ^ 6) + 3 / 10 ^ 6) : ℝ) := by
      refine le_trans ?_ (Rat.cast_le.2 (Enc.le_pow2 _))
      have := abs_sub_abs_le_abs_sub z (V (x i))
      push_cast
      linarith
    rw [Enc.pow2_zpow] at hz' ⊢
    refine FloatFmt.rnd_below ?_ hz'
    have : 100 ≤ (fmtOf b32).bias := by cases b32 <;> decide
    omega
  · have := abs_add_le (y - q) (q - V (x i))
    rw [sub_add_sub_cancel] at this
    have h5 := k2.2.2
    gcongr
    linarith

/-- Decimals that the compiler rounds to the nearest float. -/
theorem wideFx_rounded (b32 : Bool) : RoundedLits wideFx b32 0 where
  nonneg := le_rfl
  lit d hd := by
    refine ⟨_, _, exprOfDec d, d.val, rfl, rfl, by cases b32 <;> simp only [wideFx, Encodable.encodek, if_true, if_false, Bool.false_eq_true], by simp, ?_⟩
    rintro I ⟨calls, rfl⟩ env
    have : litValue (.float (displayDec d) "") = some d.val := by
      have := canon_parse d
      rw [litValue]
      simpa using this
    have hb : |(d.val : ℝ)| ≤ 2 ^ (fmtOf b32).bias := by
      have := FloatFmt.bias_fmtOf b32
      have h30 : (10 : ℝ) ^ 30 ≤ 2 ^ 127 := by norm_num
      linarith
    simp [exprOfDec, Expr.toR, RExpr.denote, ieeeInterp, litIE, litRV, this, FloatFmt.rne_f (FloatFmt.wide_fmtOf b32).ok hb]

end Verif

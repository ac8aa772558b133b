import Verif.Model.TestIeee
import Verif.Props.TestRows
import Verif.Props.IeeeTrig
import Verif.Props.IeeeDerived
import Verif.Props.IeeeSpecial

/-! # C92: what a passed accuracy test says -/

namespace Verif

section
variable {F : FloatFmt}

theorem isFloat_cases {v : RV} (h : v.IsFloat) : (∃ x, v = .f x) ∨ v = .inf true ∨ v = .inf false ∨ v = .nan := by
  cases h with
  | f x => exact .inl ⟨x, rfl⟩
  | inf s => cases s <;> simp
  | nan => simp

theorem binIE_gt_nan {m : RV} (hm : m.IsFloat) : binIE F .gt .nan m ≠ .b true := by
  cases hm <;> simp [binIE, cmpIE, RV.ereal?]

/-- The loop: from a float that is not NaN. -/
theorem maxError_fold (f : RV → RV) (L : ℝ) : ∀ (rows : List (RV × RV × RV)) (m : RV), m.IsFloat → m ≠ .nan →
    (∀ r ∈ rows, (refErrorIE F (f r.1) r.2.1 r.2.2).IsFloat) →
    (rows.foldl (maxErrorStepIE F f) m ≠ .nan ∧
      (binIE F .le (rows.foldl (maxErrorStepIE F f) m) (.f L) = .b true ↔
        binIE F .le m (.f L) = .b true ∧ ∀ r ∈ rows, refErrorIE F (f r.1) r.2.1 r.2.2 = .nan ∨ binIE F .le (refErrorIE F (f r.1) r.2.1 r.2.2) (.f L) = .b true)) := by
  intro rows
  induction rows with
  | nil => intro m _ hm _; simp [hm]
  | cons r rows ih =>
    intro m hf hm hr
    have he := hr r (by simp)
    simp only [List.foldl_cons, List.forall_mem_cons]
    generalize hE : refErrorIE F (f r.1) r.2.1 r.2.2 = E at he
    by_cases hg : binIE F .gt E m = .b true
    · have hst : maxErrorStepIE F f m r = E := by simp [maxErrorStepIE, hE, hg]
      have hn : E ≠ .nan := by rintro rfl; exact binIE_gt_nan hf hg
      obtain ⟨h1, h2⟩ := ih E he hn (fun r' h' => hr r' (by simp [h']))
      rw [hst]
      refine ⟨h1, h2.trans ?_⟩
      have : binIE F .le E (.f L) = .b true → binIE F .le m (.f L) = .b true := by
        revert hg hm
        rcases isFloat_cases he with ⟨x, rfl⟩ | rfl | rfl | rfl <;> rcases isFloat_cases hf with ⟨y, rfl⟩ | rfl | rfl | rfl <;> simp [binIE, cmpIE, RV.ereal?]
        intro h1 h2; linarith
      tauto
    · have hst : maxErrorStepIE F f m r = m := by simp [maxErrorStepIE, hE, hg]
      obtain ⟨h1, h2⟩ := ih m hf hm (fun r' h' => hr r' (by simp [h']))
      rw [hst]
      refine ⟨h1, h2.trans ?_⟩
      have : binIE F .le m (.f L) = .b true → E = .nan ∨ binIE F .le E (.f L) = .b true := by
        revert hg hm
        rcases isFloat_cases he with ⟨x, rfl⟩ | rfl | rfl | rfl <;> rcases isFloat_cases hf with ⟨y, rfl⟩ | rfl | rfl | rfl <;> simp [binIE, cmpIE, RV.ereal?]
        intro h1 h2; linarith
      tauto

/-- **C92** In float arithmetic too the test passes exactly when every error is within the limit or NaN. -/
theorem C92_passes_iff (rows : List (RV × RV × RV)) (f : RV → RV) (L : ℝ) (hL : 0 ≤ L)
    (hr : ∀ r ∈ rows, (refErrorIE F (f r.1) r.2.1 r.2.2).IsFloat) :
    TestPassesIE F rows (.f L) f ↔ ∀ r ∈ rows, refErrorIE F (f r.1) r.2.1 r.2.2 = .nan ∨ ∃ m, refErrorIE F (f r.1) r.2.1 r.2.2 = .f m ∧ m ≤ L := by
  obtain ⟨h1, h2⟩ := maxError_fold (F := F) f L rows (.f 0) (.f _) (by simp) hr
  unfold TestPassesIE maxErrorIE
  rw [h2]
  simp only [ne_eq, h1, not_false_eq_true, true_and, binIE_le, hL, decide_true]
  refine forall₂_congr fun r hm => or_congr_right ?_
  have hE := hr r hm
  revert hE
  unfold refErrorIE
  generalize binIE F .sub (binIE F .sub (f r.1) r.2.1) r.2.2 = t
  cases t <;> simp [methIE, binIE, cmpIE, RV.ereal?]

end

/-! ## What a row measures -/

section
variable {b32 : Bool}

/-- **C92** What a row measures: the distance from the reference, up to half a unit in the last place of the reference and little more. -/
theorem C92_measured {c y e : ℝ} (hc : |c| ≤ 2 ^ 90) (hy : |y| ≤ 100) (he : |e| ≤ 1) :
    ∃ m, refErrorIE (fmtOf b32) (.f c) ((fmtOf b32).rne y) ((fmtOf b32).rne e) = .f m ∧
      |m - (|c - (y + e)|)| ≤ (fmtOf b32).eps * (1.001 * |y| + 3 * |c - (y + e)| + 4 * |e| + 8 * (fmtOf b32).tiny) := by
  obtain ⟨ε, hε⟩ : ∃ ε, ε = (fmtOf b32).eps := ⟨_, rfl⟩
  obtain ⟨τ, hτ⟩ : ∃ τ, τ = (fmtOf b32).tiny := ⟨_, rfl⟩
  have hε0 : 0 < ε := hε ▸ FloatFmt.eps_pos
  have hε1 : ε ≤ 1 / 2 ^ 24 := hε ▸ eps_fmtOf b32
  have hτ0 : 0 < τ := hτ ▸ FloatFmt.tiny_pos
  have hτ1 : τ ≤ 1 / 2 ^ 28 := hτ ▸ FloatFmt.tiny_le (FloatFmt.wide_fmtOf b32)
  norm_num at hε1 hτ1
  rw [rne_small (hy.trans (by norm_num)), rne_small (he.trans (by norm_num))]
  have e1 := FloatFmt.rnd_err (F := fmtOf b32) y
  have e2 := FloatFmt.rnd_err (F := fmtOf b32) e
  generalize (fmtOf b32).rnd y = Y at *
  generalize (fmtOf b32).rnd e = E at *
  rw [← hε, ← hτ] at e1 e2 ⊢
  have hY : |Y| ≤ 102 := by
    have := abs_sub_abs_le_abs_sub Y y
    nlinarith [abs_nonneg y]
  have hE : |E| ≤ 2 := by
    have := abs_sub_abs_le_abs_sub E e
    nlinarith [abs_nonneg e]
  have hcY : |c - Y| ≤ 2 ^ 91 := by
    have := abs_sub c Y
    norm_num at hc ⊢; linarith
  have e3 := FloatFmt.rnd_err (F := fmtOf b32) (c - Y)
  rw [← hε, ← hτ] at e3
  simp only [refErrorIE, binIE_sub, rne_small (hcY.trans (by norm_num))]
  generalize (fmtOf b32).rnd (c - Y) = S at *
  have hS : |S| ≤ 2 ^ 92 := by
    have h1 := abs_sub_abs_le_abs_sub S (c - Y)
    have h2 : ε * (|c - Y| + τ) ≤ 1 / 2 * (|c - Y| + τ) := by gcongr; linarith
    norm_num at hcY ⊢; linarith
  have hSE : |S - E| ≤ 2 ^ 93 := by
    have := abs_sub S E
    norm_num at hS ⊢; linarith
  have e4 := FloatFmt.rnd_err (F := fmtOf b32) (S - E)
  rw [← hε, ← hτ] at e4
  rw [rne_small (hSE.trans (by norm_num)), methIE_abs]
  generalize (fmtOf b32).rnd (S - E) = m at *
  refine ⟨_, rfl, ?_⟩
  clear hcY hS hSE hc hY hE
  refine (abs_abs_sub_abs_le _ _).trans ?_
  -- the four roundings
  obtain ⟨D, hD⟩ : ∃ D, D = |c - (y + e)| := ⟨_, rfl⟩
  have hD0 : 0 ≤ D := hD ▸ abs_nonneg _
  have f1 : |c - Y| ≤ D + |e| + ε * (|y| + τ) := by
    calc |c - Y| = |(c - (y + e)) + e - (Y - y)| := by congr 1; ring
      _ ≤ |(c - (y + e)) + e| + |Y - y| := abs_sub _ _
      _ ≤ |c - (y + e)| + |e| + ε * (|y| + τ) := add_le_add (abs_add_le _ _) e1
      _ = _ := by rw [hD]
  have f2 : |S - (c - Y)| ≤ ε * (D + |e| + ε * (|y| + τ) + τ) := e3.trans (by gcongr)
  have f3 : |S - E - (c - (y + e))| ≤ ε * (D + |e| + ε * (|y| + τ) + τ) + ε * (|y| + τ) + ε * (|e| + τ) := by
    calc |S - E - (c - (y + e))| = |(S - (c - Y)) - (Y - y) - (E - e)| := by congr 1; ring
      _ ≤ |(S - (c - Y)) - (Y - y)| + |E - e| := abs_sub _ _
      _ ≤ |S - (c - Y)| + |Y - y| + |E - e| := by gcongr; exact abs_sub _ _
      _ ≤ _ := by gcongr
  have f4 : |S - E| ≤ D + (ε * (D + |e| + ε * (|y| + τ) + τ) + ε * (|y| + τ) + ε * (|e| + τ)) := by
    calc |S - E| = |(c - (y + e)) + (S - E - (c - (y + e)))| := by congr 1; ring
      _ ≤ _ := (abs_add_le _ _).trans (add_le_add hD.ge f3)
  have f5 : |m - (c - (y + e))| ≤ ε * (|S - E| + τ) + (ε * (D + |e| + ε * (|y| + τ) + τ) + ε * (|y| + τ) + ε * (|e| + τ)) := by
    calc |m - (c - (y + e))| = |(m - (S - E)) + (S - E - (c - (y + e)))| := by congr 1; ring
      _ ≤ _ := (abs_add_le _ _).trans (add_le_add e4 f3)
  rw [← hD]
  refine f5.trans ?_
  have g1 : ε * (|S - E| + τ) ≤ ε * (D + (ε * (D + |e| + ε * (|y| + τ) + τ) + ε * (|y| + τ) + ε * (|e| + τ)) + τ) := by gcongr
  have hy0 := abs_nonneg y
  have he0 := abs_nonneg e
  generalize |y| = y' at *
  generalize |e| = e' at *
  have k1 : ε * (y' + τ) ≤ 1 / 10 ^ 4 * (y' + τ) := by gcongr; norm_num; linarith
  have k2 : ε * (e' + τ) ≤ 1 / 10 ^ 4 * (e' + τ) := by gcongr; norm_num; linarith
  have k3 : ε * (D + e' + ε * (y' + τ) + τ) ≤ 1 / 10 ^ 4 * (D + e' + 1 / 10 ^ 4 * (y' + τ) + τ) := by gcongr; norm_num; linarith
  have k4 : ε * (D + (ε * (D + e' + ε * (y' + τ) + τ) + ε * (y' + τ) + ε * (e' + τ)) + τ) ≤
      ε * (D + (1 / 10 ^ 4 * (D + e' + 1 / 10 ^ 4 * (y' + τ) + τ) + 1 / 10 ^ 4 * (y' + τ) + 1 / 10 ^ 4 * (e' + τ)) + τ) := by gcongr
  have k5 : ε * (D + e' + ε * (y' + τ) + τ) ≤ ε * (D + e' + 1 / 10 ^ 4 * (y' + τ) + τ) := by gcongr
  refine (add_le_add (g1.trans k4) (add_le_add (add_le_add k5 le_rfl) le_rfl)).trans ?_
  have p1 := mul_nonneg hε0.le hD0
  have p2 := mul_nonneg hε0.le hy0
  have p3 := mul_nonneg hε0.le he0
  have p4 := mul_nonneg hε0.le hτ0.le
  clear k1 k2 k3 k4 k5 g1 e1 e2 e3 e4 f1 f2 f3 f4 f5 hD
  norm_num
  linarith

theorem rne_large {x : ℝ} {k : ℕ} (h : 2 ^ k ≤ |x|) : (∃ y, (fmtOf b32).rne x = .f y ∧ 2 ^ k ≤ |y|) ∨ ∃ s, (fmtOf b32).rne x = .inf s := by
  have hr : (fmtOf b32).Repr ((2 : ℝ) ^ k) := by
    have := FloatFmt.repr_zpow (F := fmtOf b32) (e := k) (by have := FloatFmt.bias_pos (FloatFmt.wide_fmtOf b32).ok; omega)
    rwa [zpow_natCast] at this
  unfold FloatFmt.rne
  split
  · left
    refine ⟨_, rfl, ?_⟩
    rw [FloatFmt.abs_rnd]
    exact FloatFmt.le_rnd hr h
  · exact .inr ⟨_, rfl⟩

/-- A result far away is measured as far away. -/
theorem measured_far {c y e : ℝ} (hc : 2 ^ 90 < |c|) (hy : |y| ≤ 100) (he : |e| ≤ 1) :
    refErrorIE (fmtOf b32) (.f c) ((fmtOf b32).rne y) ((fmtOf b32).rne e) = .inf false ∨
    ∃ m, refErrorIE (fmtOf b32) (.f c) ((fmtOf b32).rne y) ((fmtOf b32).rne e) = .f m ∧ 2 ^ 88 ≤ m := by
  have hε0 := FloatFmt.eps_pos (F := fmtOf b32)
  have hε1 := eps_fmtOf b32
  have hτ0 := FloatFmt.tiny_pos (F := fmtOf b32)
  have hτ1 := FloatFmt.tiny_le (FloatFmt.wide_fmtOf b32)
  norm_num at hε1 hτ1
  rw [rne_small (hy.trans (by norm_num)), rne_small (he.trans (by norm_num))]
  have e1 := FloatFmt.rnd_err (F := fmtOf b32) y
  have e2 := FloatFmt.rnd_err (F := fmtOf b32) e
  generalize (fmtOf b32).rnd y = Y at *
  generalize (fmtOf b32).rnd e = E at *
  generalize (fmtOf b32).eps = ε at *
  generalize (fmtOf b32).tiny = τ at *
  have hY : |Y| ≤ 102 := by
    have := abs_sub_abs_le_abs_sub Y y
    nlinarith [abs_nonneg y]
  have hE : |E| ≤ 2 := by
    have := abs_sub_abs_le_abs_sub E e
    nlinarith [abs_nonneg e]
  have h1 : 2 ^ 89 ≤ |c - Y| := by
    have := abs_sub_abs_le_abs_sub c Y
    norm_num at hc ⊢; linarith
  rcases rne_large (b32 := b32) h1 with ⟨S, hS, h2⟩ | ⟨s, hS⟩
  · have h3 : 2 ^ 88 ≤ |S - E| := by
      have := abs_sub_abs_le_abs_sub S E
      norm_num at h2 ⊢; linarith
    rcases rne_large (b32 := b32) h3 with ⟨m, hm, h4⟩ | ⟨s, hm⟩
    · right
      exact ⟨|m|, by simp [refErrorIE, hS, hm], h4⟩
    · left
      simp [refErrorIE, hS, hm, methIE]
  · left
    rw [refErrorIE, binIE_sub, hS]
    simp [binIE, addIE, methIE, unRV]

/-- A result that is no number. -/
theorem measured_other {v : RV} (hv : v.IsFloat) {y e : ℝ} :
    (v = .nan → refErrorIE (fmtOf b32) v (.f y) (.f e) = .nan) ∧ (∀ s, v = .inf s → refErrorIE (fmtOf b32) v (.f y) (.f e) = .inf false) := by
  constructor
  · rintro rfl; simp [refErrorIE, binIE, addIE, methIE, unRV]
  · rintro s rfl; simp [refErrorIE, binIE, addIE, methIE, unRV]

theorem emittedIE_dec {F : FloatFmt} (d : Dec) : emittedIE F (exprOfDec d) = F.rne (d.val : ℝ) := by
  have : litValue (.float (displayDec d) "") = some d.val := by
    have := canon_parse d
    rw [litValue]
    simpa using this
  simp [emittedIE, exprOfDec, Expr.toR, RExpr.denote, ieeeInterp, litIE, litRV, this]

/-- The error left in the tables, in float units. -/
theorem table_error (b32 : Bool) : (5200 : ℝ) / 10 ^ configDigits b32 ≤ 1 / 1000 * (fmtOf b32).eps := by
  cases b32 <;> simp only [configDigits, fmtOf, FloatFmt.eps, FloatFmt.f32, FloatFmt.f64] <;> norm_num

/-- **C92** A row measures the error of the function at its sample, up to half a unit in the last place of the function value and little more. -/
theorem C92_row {dy de c V : ℝ} (hc : |c| ≤ 2 ^ 90) (h1 : |dy + de - V| ≤ 5200 / 10 ^ configDigits b32) (h2 : |de| ≤ 2 / 10 ^ 6 * (|V| + 1)) (h3 : |V| ≤ 99) :
    ∃ m, refErrorIE (fmtOf b32) (.f c) ((fmtOf b32).rne dy) ((fmtOf b32).rne de) = .f m ∧
      |m - (|c - V|)| ≤ (fmtOf b32).eps * (1.01 * |V| + 3 * |c - V| + 1 / 100) := by
  have hδ := table_error b32
  have hε0 := FloatFmt.eps_pos (F := fmtOf b32)
  have hε1 := eps_fmtOf b32
  have hτ1 := FloatFmt.tiny_le (FloatFmt.wide_fmtOf b32)
  have hV0 := abs_nonneg V
  have he1 : |de| ≤ 1 := h2.trans (by norm_num; linarith)
  have hy : |dy| ≤ |V| + |de| + 1 / 1000 * (fmtOf b32).eps := by
    calc |dy| = |V - de + (dy + de - V)| := by congr 1; ring
      _ ≤ |V - de| + |dy + de - V| := abs_add_le _ _
      _ ≤ |V| + |de| + 1 / 1000 * (fmtOf b32).eps := add_le_add (abs_sub _ _) (h1.trans hδ)
  norm_num at h2 hε1 hτ1
  obtain ⟨m, hm, hb⟩ := C92_measured (b32 := b32) (c := c) (y := dy) (e := de) hc (by linarith) he1
  refine ⟨m, hm, ?_⟩
  generalize (fmtOf b32).eps = ε at *
  generalize (fmtOf b32).tiny = τ at *
  have k := h1.trans hδ
  have k1 : |(|c - (dy + de)|) - (|c - V|)| ≤ 1 / 1000 * ε := by
    refine (abs_abs_sub_abs_le _ _).trans ?_
    rwa [show c - (dy + de) - (c - V) = -(dy + de - V) by ring, abs_neg]
  have k2 : |c - (dy + de)| ≤ |c - V| + 1 / 1000 * ε := by linarith [(abs_le.1 k1).2]
  have k3 : ε * (1.001 * |dy| + 3 * |c - (dy + de)| + 4 * |de| + 8 * τ) ≤ ε * (1.01 * |V| + 3 * |c - V| + 1 / 200) := by
    refine mul_le_mul_of_nonneg_left ?_ hε0.le
    norm_num; linarith
  calc |m - (|c - V|)| = |(m - (|c - (dy + de)|)) + ((|c - (dy + de)|) - (|c - V|))| := by congr 1; ring
    _ ≤ _ := abs_add_le _ _
    _ ≤ ε * (1.01 * |V| + 3 * |c - V| + 1 / 200) + 1 / 1000 * ε := add_le_add (hb.trans k3) k1
    _ ≤ _ := by nlinarith

theorem limit_le (b32 : Bool) : ∀ s ∈ testSpecs, ∀ tmin tmax k32 k64 N, s.test = .maxAbs tmin tmax k32 k64 N →
    0 ≤ accuracyLimit b32 k32 k64 ∧ accuracyLimit b32 k32 k64 ≤ 1 := by
  have h : ∀ s ∈ testSpecs, match s.test with
    | .maxAbs _ _ k32 k64 _ => 0 ≤ accuracyLimit b32 k32 k64 ∧ accuracyLimit b32 k32 k64 ≤ 1
    | .histogram _ _ => True := by
    cases b32 <;> simp only [testSpecs, TestSpec.maxAbs, List.forall_mem_cons, accuracyLimit] <;> norm_num
  intro s hs tmin tmax k32 k64 N ht
  have := h s hs
  rw [ht] at this
  exact this

end

/-- **C92** For every accuracy test of the library there are samples next to the intended points such that for every function under test and every limit up to one:
if the test passes, then at every sample the function returns NaN or is within the limit of the true value, up to half a unit in the last place of that
value and a hundredth of a unit; and if it is within the limit reduced by as much, the test passes. -/
theorem C92_limits {ext : BdExt} (hs : SqrtOk ext) (hf : 600 ≤ ext.fuel) (hr : RoundsNear ext) (b32 : Bool) (s : TestSpec) (hm : s ∈ testSpecs)
    (tmin tmax : Expr) (k32 k64 : ℚ) (N : ℕ) (ht : s.test = .maxAbs tmin tmax k32 k64 N) :
    ∃ rows V a b, testRows ext b32 s.ref tmin tmax N = .ok rows ∧ (s.name, some (V, a, b)) ∈ testMeaning ∧ ∃ x : ℕ → ℝ, (∀ i < N, |x i - (a + i * (b - a) / N)| ≤ 2 / 10 ^ 5) ∧
      ∀ (f : RV → RV) (L : ℝ), 0 ≤ L → L ≤ 1 → (∀ i < N, (f (.f ((fmtOf b32).rnd (x i)))).IsFloat) →
        let ε := (fmtOf b32).eps
        (TestPassesIE (fmtOf b32) (rows.map (rowIE (fmtOf b32))) (.f L) f →
          ∀ i < N, f (.f ((fmtOf b32).rnd (x i))) = .nan ∨ ∃ c, f (.f ((fmtOf b32).rnd (x i))) = .f c ∧ |c - V (x i)| ≤ (1 + 4 * ε) * (L + ε * (1.01 * |V (x i)| + 1 / 100))) ∧
        ((∀ i < N, f (.f ((fmtOf b32).rnd (x i))) = .nan ∨ ∃ c, f (.f ((fmtOf b32).rnd (x i))) = .f c ∧ (1 + 3 * ε) * |c - V (x i)| + ε * (1.01 * |V (x i)| + 1 / 100) ≤ L) →
          TestPassesIE (fmtOf b32) (rows.map (rowIE (fmtOf b32))) (.f L) f) := by
  obtain ⟨⟨nm, o⟩, hmem, hname, h⟩ := forall2_pick (C90_rows hs hf hr b32) hm
  rw [ht] at h
  simp only at hname
  obtain ⟨V, a, b, rfl, h⟩ : ∃ V a b, o = some (V, a, b) ∧ RowsRight ext b32 s.ref tmin tmax N V a b := by
    revert h
    cases o with
    | none => exact False.elim
    | some p => exact fun h => ⟨p.1, p.2.1, p.2.2, rfl, h⟩
  obtain ⟨rows, h1, h2⟩ := foldlM_rows (fun i => sampleRow ext (configDigits b32) (if b32 then 32 else 64) s.ref tmin tmax N i) (List.range N)
    (fun i hi => by obtain ⟨dx, dy, de, h1, _⟩ := h i (List.mem_range.1 hi); exact ⟨_, h1⟩) []
  rw [List.nil_append] at h1
  choose! dx dy de g1 g2 g3 g4 g5 g6 g7 g8 g9 using h
  have hrows : rows = (List.range N).map fun i => (exprOfDec (dx i), exprOfDec (dy i), exprOfDec (de i)) := by
    have h3 : List.Forall₂ (fun i a => (exprOfDec (dx i), exprOfDec (dy i), exprOfDec (de i)) = a) (List.range N) rows := by
      rw [List.forall₂_iff_get] at h2 ⊢
      refine ⟨h2.1, fun i hi hi' => ?_⟩
      have h4 := h2.2 i hi hi'
      have hiN : i < N := by simpa using hi
      simp only [List.get_eq_getElem, List.getElem_range] at h4 ⊢
      rw [g1 i hiN] at h4
      exact Res.ok.inj h4
    rw [← List.forall₂_map_left_iff, List.forall₂_eq_eq_eq] at h3
    exact h3.symm
  refine ⟨rows, V, a, b, h1, by rw [hname]; exact hmem, fun i => ((dx i).val : ℝ), g5, fun f L hL0 hL1 hfl => ?_⟩
  intro ε
  have hε0 : 0 < ε := FloatFmt.eps_pos
  have hε1 : ε ≤ 1 / 2 ^ 24 := eps_fmtOf b32
  norm_num at hε1
  have hx11 : ∀ i < N, |((dx i).val : ℝ)| ≤ 2 ^ 100 := fun i hi => (g9 i hi).trans (by norm_num)
  -- one row
  have hrow : ∀ i < N, let v := f (.f ((fmtOf b32).rnd ((dx i).val : ℝ)))
      let e := refErrorIE (fmtOf b32) v ((fmtOf b32).rne ((dy i).val : ℝ)) ((fmtOf b32).rne ((de i).val : ℝ))
      e.IsFloat ∧ (v = .nan → e = .nan) ∧ (∀ t, v = .inf t → e = .inf false) ∧
      (∀ c, v = .f c → (2 ^ 90 < |c| ∧ (e = .inf false ∨ ∃ m, e = .f m ∧ 2 ^ 88 ≤ m)) ∨
        ∃ m, e = .f m ∧ |m - (|c - V (dx i).val|)| ≤ ε * (1.01 * |V (dx i).val| + 3 * |c - V (dx i).val| + 1 / 100)) := by
    intro i hi v e
    have hv := hfl i hi
    have q1 := g6 i hi
    have q2 := g7 i hi
    have q3 := g8 i hi
    push_cast at q1
    have hde : |((de i).val : ℝ)| ≤ 1 := q2.trans (by norm_num; linarith)
    have hdy : |((dy i).val : ℝ)| ≤ 100 := by
      have k := table_error b32
      calc |((dy i).val : ℝ)| = |V (dx i).val - (de i).val + (((dy i).val : ℝ) + (de i).val - V (dx i).val)| := by congr 1; ring
        _ ≤ |V (dx i).val - (de i).val| + |((dy i).val : ℝ) + (de i).val - V (dx i).val| := abs_add_le _ _
        _ ≤ |V (dx i).val| + |((de i).val : ℝ)| + 5200 / 10 ^ configDigits b32 := add_le_add (abs_sub _ _) q1
        _ ≤ 99 + 2 / 10 ^ 6 * (|V (dx i).val| + 1) + 1 / 1000 * ε := by gcongr
        _ ≤ 99 + 2 / 10 ^ 6 * (99 + 1) + 1 / 1000 * 1 := by gcongr; linarith
        _ ≤ 100 := by norm_num
    have hrd : ∀ {z : ℝ}, |z| ≤ 100 → ∃ z', (fmtOf b32).rne z = .f z' := fun hz => ⟨_, rne_small (hz.trans (by norm_num))⟩
    obtain ⟨y', hy'⟩ := hrd hdy
    obtain ⟨e', he'⟩ := hrd (hde.trans (by norm_num))
    have hother := measured_other (b32 := b32) hv (y := y') (e := e')
    refine ⟨?_, ?_, ?_, ?_⟩
    · rcases isFloat_cases hv with ⟨c, hc⟩ | hc | hc | hc
      · show (refErrorIE _ (f _) _ _).IsFloat
        rw [hc]
        rcases le_or_gt |c| (2 ^ 90) with h5 | h5
        · obtain ⟨m, hm, -⟩ := C92_row (b32 := b32) h5 q1 q2 q3
          rw [hm]; constructor
        · rcases measured_far (b32 := b32) h5 hdy hde with hm | ⟨m, hm, -⟩ <;> rw [hm] <;> constructor
      · show (refErrorIE _ (f _) _ _).IsFloat
        rw [hy', he', hother.2 _ hc]; constructor
      · show (refErrorIE _ (f _) _ _).IsFloat
        rw [hy', he', hother.2 _ hc]; constructor
      · show (refErrorIE _ (f _) _ _).IsFloat
        rw [hy', he', hother.1 hc]; constructor
    · intro hc
      show refErrorIE _ (f _) _ _ = _
      rw [hy', he', hother.1 hc]
    · intro t hc
      show refErrorIE _ (f _) _ _ = _
      rw [hy', he', hother.2 _ hc]
    · intro c hc
      show (_ ∧ (refErrorIE _ v _ _ = _ ∨ ∃ m, refErrorIE _ v _ _ = _ ∧ _)) ∨ ∃ m, refErrorIE _ v _ _ = _ ∧ _
      rw [hc]
      rcases le_or_gt |c| (2 ^ 90) with h5 | h5
      · exact .inr (C92_row (b32 := b32) h5 q1 q2 q3)
      · exact .inl ⟨h5, measured_far (b32 := b32) h5 hdy hde⟩
  have hall : ∀ r ∈ rows.map (rowIE (fmtOf b32)), (refErrorIE (fmtOf b32) (f r.1) r.2.1 r.2.2).IsFloat := by
    intro r hr'
    rw [hrows, List.map_map] at hr'
    obtain ⟨i, hi, rfl⟩ := List.mem_map.1 hr'
    have hi' := List.mem_range.1 hi
    simp only [Function.comp, rowIE, emittedIE_dec, rne_small (hx11 i hi')]
    exact (hrow i hi').1
  have hiff : TestPassesIE (fmtOf b32) (rows.map (rowIE (fmtOf b32))) (.f L) f ↔
      ∀ i < N, refErrorIE (fmtOf b32) (f (.f ((fmtOf b32).rnd ((dx i).val : ℝ)))) ((fmtOf b32).rne ((dy i).val : ℝ)) ((fmtOf b32).rne ((de i).val : ℝ)) = .nan ∨
        ∃ m, refErrorIE (fmtOf b32) (f (.f ((fmtOf b32).rnd ((dx i).val : ℝ)))) ((fmtOf b32).rne ((dy i).val : ℝ)) ((fmtOf b32).rne ((de i).val : ℝ)) = .f m ∧ m ≤ L := by
    rw [C92_passes_iff _ _ _ hL0 hall, hrows, List.map_map]
    simp only [List.mem_map, List.mem_range, forall_exists_index, and_imp, forall_apply_eq_imp_iff₂, Function.comp, rowIE, emittedIE_dec]
    refine forall₂_congr fun i hi => ?_
    rw [rne_small (hx11 i hi)]
  rw [hiff]
  constructor
  · intro hp i hi
    obtain ⟨-, r2, r3, r4⟩ := hrow i hi
    rcases isFloat_cases (hfl i hi) with ⟨c, hc⟩ | hc | hc | hc
    · right
      refine ⟨c, hc, ?_⟩
      rcases hp i hi with h5 | ⟨m, h5, h6⟩
      · rcases r4 c hc with ⟨-, h7 | ⟨m, h7, -⟩⟩ | ⟨m, h7, -⟩ <;> rw [h5] at h7 <;> cases h7
      · rcases r4 c hc with ⟨-, h7 | ⟨m', h7, h8⟩⟩ | ⟨m', h7, h8⟩
        · rw [h5] at h7; cases h7
        · rw [h5] at h7; cases h7; norm_num at h8; linarith
        · rw [h5] at h7; cases h7
          have h9 := (abs_le.1 h8).1
          have hD := abs_nonneg (c - V (dx i).val)
          have hV := abs_nonneg (V (dx i).val)
          generalize |c - V (dx i).val| = D at *
          generalize |V (dx i).val| = W at *
          generalize hR : L + ε * (1.01 * W + 1 / 100) = R
          have hR0 : 0 ≤ R := by rw [← hR]; positivity
          have h10 : (1 - 3 * ε) * D ≤ R := by rw [← hR]; linarith
          have h11 : D ≤ (1 + 4 * ε) * ((1 - 3 * ε) * D) := by
            have : (1 + 4 * ε) * ((1 - 3 * ε) * D) - D = (ε - 12 * ε * ε) * D := by ring
            have : 0 ≤ (ε - 12 * ε * ε) * D := mul_nonneg (by nlinarith) hD
            linarith
          exact h11.trans (mul_le_mul_of_nonneg_left h10 (by linarith))
    · have := r3 _ hc
      rcases hp i hi with h5 | ⟨m, h5, -⟩ <;> rw [h5] at this <;> cases this
    · have := r3 _ hc
      rcases hp i hi with h5 | ⟨m, h5, -⟩ <;> rw [h5] at this <;> cases this
    · exact .inl hc
  · intro hp i hi
    obtain ⟨-, r2, r3, r4⟩ := hrow i hi
    rcases hp i hi with h5 | ⟨c, hc, h5⟩
    · exact .inl (r2 h5)
    · right
      have hD := abs_nonneg (c - V (dx i).val)
      have hV := abs_nonneg (V (dx i).val)
      have hsm : |c| ≤ 2 ^ 90 := by
        have h99 := g8 i hi
        have h6 : |c - V (dx i).val| ≤ 1 := by
          nlinarith [mul_nonneg hε0.le hD, mul_nonneg hε0.le hV]
        have := abs_sub_abs_le_abs_sub c (V (dx i).val)
        norm_num; linarith
      rcases r4 c hc with ⟨h6, -⟩ | ⟨m, h7, h8⟩
      · linarith
      · exact ⟨m, h7, by linarith [(abs_le.1 h8).2]⟩

/-- **C92** With the limit of the test: if the test passes, then at every sample the function returns NaN or is within the limit of the true value, up to half a
unit in the last place of that value and a hundredth of a unit; and if it is within the limit reduced by as much, the test passes. -/
theorem C92_verdict {ext : BdExt} (hs : SqrtOk ext) (hf : 600 ≤ ext.fuel) (hr : RoundsNear ext) (b32 : Bool) (s : TestSpec) (hm : s ∈ testSpecs)
    (tmin tmax : Expr) (k32 k64 : ℚ) (N : ℕ) (ht : s.test = .maxAbs tmin tmax k32 k64 N) :
    ∃ rows V a b, testRows ext b32 s.ref tmin tmax N = .ok rows ∧ (s.name, some (V, a, b)) ∈ testMeaning ∧ ∃ x : ℕ → ℝ, (∀ i < N, |x i - (a + i * (b - a) / N)| ≤ 2 / 10 ^ 5) ∧
      ∀ f : RV → RV, (∀ i < N, (f (.f ((fmtOf b32).rnd (x i)))).IsFloat) →
        let ε := (fmtOf b32).eps
        let L : ℝ := ((accuracyLimit b32 k32 k64 : ℚ) : ℝ)
        (TestPassesIE (fmtOf b32) (rows.map (rowIE (fmtOf b32))) (limitIE b32 k32 k64) f →
          ∀ i < N, f (.f ((fmtOf b32).rnd (x i))) = .nan ∨ ∃ c, f (.f ((fmtOf b32).rnd (x i))) = .f c ∧ |c - V (x i)| ≤ (1 + 4 * ε) * (L + ε * (1.01 * |V (x i)| + 1 / 100))) ∧
        ((∀ i < N, f (.f ((fmtOf b32).rnd (x i))) = .nan ∨ ∃ c, f (.f ((fmtOf b32).rnd (x i))) = .f c ∧ (1 + 3 * ε) * |c - V (x i)| + ε * (1.01 * |V (x i)| + 1 / 100) ≤ L) →
          TestPassesIE (fmtOf b32) (rows.map (rowIE (fmtOf b32))) (limitIE b32 k32 k64) f) := by
  obtain ⟨rows, V, a, b, h1, h2, x, h3, h4⟩ := C92_limits hs hf hr b32 s hm tmin tmax k32 k64 N ht
  have hL := limit_le b32 s hm _ _ _ _ _ ht
  refine ⟨rows, V, a, b, h1, h2, x, h3, fun f hfl => ?_⟩
  have hL1 : ((accuracyLimit b32 k32 k64 : ℚ) : ℝ) ≤ 1 := by rw [← Rat.cast_one (α := ℝ)]; exact Rat.cast_le.2 hL.2
  exact h4 f _ (Rat.cast_nonneg.2 hL.1) hL1 hfl

/-- **C92** A function that returns NaN everywhere passes every accuracy test: the assertion against NaN looks at the largest error, which no NaN ever becomes. -/
theorem C92_nan_passes {ext : BdExt} (hs : SqrtOk ext) (hf : 600 ≤ ext.fuel) (hr : RoundsNear ext) (b32 : Bool) (s : TestSpec) (hm : s ∈ testSpecs)
    (tmin tmax : Expr) (k32 k64 : ℚ) (N : ℕ) (ht : s.test = .maxAbs tmin tmax k32 k64 N) :
    ∃ rows, testRows ext b32 s.ref tmin tmax N = .ok rows ∧
      TestPassesIE (fmtOf b32) (rows.map (rowIE (fmtOf b32))) (limitIE b32 k32 k64) fun _ => .nan := by
  obtain ⟨rows, V, a, b, h1, -, x, -, h4⟩ := C92_verdict hs hf hr b32 s hm tmin tmax k32 k64 N ht
  exact ⟨rows, h1, (h4 (fun _ => .nan) fun _ _ => by constructor).2 fun _ _ => .inl rfl⟩

/-- The hypotheses can be met, here for the test of `nextafter`. -/
example : ∃ rows, testRows tableExt true TestSpec.x (litInt "0") (litInt "1") 237 = .ok rows ∧
    TestPassesIE (fmtOf true) (rows.map (rowIE (fmtOf true))) (limitIE true 1 1) fun _ => .nan :=
  C92_nan_passes (ext := tableExt) ⟨longExt_ok.1, longExt_ok.2⟩ (by decide) tableExt_rounds true
    (TestSpec.maxAbs "nextafter" "test_nextafter" TestSpec.x (TestSpec.app "nextafter" [.path ["x"]]) (litInt "0") (litInt "1") 1 1 237)
    (by simp [testSpecs]) _ _ _ _ _ rfl

end Verif

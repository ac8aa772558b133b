import Verif.Model.Test
import Verif.Props.EvalReal
import Verif.Props.Symbolic
import Verif.Props.Approx
import Verif.Lemmas.Float

/-! # C62, C70–C73: the generated tests -/

namespace Verif

/-! ## C70: the accuracy test -/

/-- The error of one row. -/
def rowError (f : Fl → Fl) (row : Fl × Fl × Fl) : Fl := (((f row.1).sub row.2.1).sub row.2.2).abs

theorem Fl.max_le (w e L : Fl) (hw : w ≠ .nan) :
    (if w.lt e then e else w) ≠ .nan ∧ ((if w.lt e then e else w).le L = true ↔ w.le L = true ∧ (e = .nan ∨ e.le L = true)) := by
  cases w <;> cases e <;> cases L <;> simp_all [Fl.lt, Fl.le] <;> split_ifs <;> simp_all
  all_goals first
    | (constructor <;> intro h <;> first | exact ⟨by linarith, by linarith⟩ | linarith [h.1, h.2])
    | grind

theorem worst_le (f : Fl → Fl) (L : Fl) : ∀ (rows : List (Fl × Fl × Fl)) (w : Worst), w.err ≠ .nan →
    (rows.foldl (worstStep f) w).err ≠ .nan ∧
    ((rows.foldl (worstStep f) w).err.le L = true ↔ w.err.le L = true ∧ ∀ r ∈ rows, rowError f r = .nan ∨ (rowError f r).le L = true) := by
  intro rows
  induction rows with
  | nil => intro w hw; simp [hw]
  | cons r rs ih =>
    intro w hw
    have hs : (worstStep f w r).err = if w.err.lt (rowError f r) then rowError f r else w.err := by
      by_cases hlt : w.err.lt (refError (f r.1) r.2.1 r.2.2) = true <;> simp_all [worstStep, rowError, refError]
    have hm := Fl.max_le w.err (rowError f r) L hw
    rw [← hs] at hm
    obtain ⟨h1, h2⟩ := ih _ hm.1
    rw [List.foldl_cons]
    refine ⟨h1, ?_⟩
    rw [h2, hm.2]
    simp only [List.mem_cons, forall_eq_or_imp, and_assoc]

/-- **C70** What the test really checks: every error is within the limit **or NaN**. -/
theorem C70_passes_iff (rows : List (Fl × Fl × Fl)) (f : Fl → Fl) (q : ℚ) (hq : 0 ≤ q) :
    testPasses rows (.num q) f = true ↔ ∀ r ∈ rows, rowError f r = .nan ∨ (rowError f r).le (.num q) = true := by
  obtain ⟨h1, h2⟩ := worst_le f (.num q) rows ⟨.num 0, .num 0, .num 0, .num 0⟩ (by simp)
  unfold testPasses
  have hn : ((worst rows f).err).isNan = false := by
    unfold worst; revert h1; cases (List.foldl (worstStep f) ⟨.num 0, .num 0, .num 0, .num 0⟩ rows).err <;> simp [Fl.isNan]
  simp only [hn, Bool.not_false, Bool.true_and]
  unfold worst
  rw [h2]
  simp [Fl.le, hq]

/-- **C70** (results that are numbers.)  Full claim: the test passes exactly when every result is within the limit of its reference; false, see
`C70_nan_passes`. -/
theorem C70_passes_iff_partial (rows : List (Fl × Fl × Fl)) (f : Fl → Fl) (q : ℚ) (hq : 0 ≤ q) (h : ∀ r ∈ rows, rowError f r ≠ .nan) :
    testPasses rows (.num q) f = true ↔ ∀ r ∈ rows, (rowError f r).le (.num q) = true := by
  rw [C70_passes_iff rows f q hq]
  exact forall₂_congr fun r hr => ⟨fun h1 => h1.resolve_left (h r hr), Or.inr⟩

/-- **C70** On numbers: the test passes exactly when at every sample the result is within the limit of the reference plus its correction term. -/
theorem C70_numbers (rows : List (ℚ × ℚ × ℚ)) (f : Fl → Fl) (F : ℚ → ℚ) (hf : ∀ r ∈ rows, f (.num r.1) = .num (F r.1)) (q : ℚ) (hq : 0 ≤ q) :
    testPasses (rows.map fun r => (.num r.1, .num r.2.1, .num r.2.2)) (.num q) f = true ↔ ∀ r ∈ rows, |F r.1 - (r.2.1 + r.2.2)| ≤ q := by
  have h : ∀ r ∈ rows, rowError f (.num r.1, .num r.2.1, .num r.2.2) = .num |F r.1 - (r.2.1 + r.2.2)| := by
    intro r hr
    simp only [rowError, hf r hr, Fl.sub, Fl.abs]
    rw [sub_sub]
  rw [C70_passes_iff_partial _ _ _ hq]
  · simp only [List.mem_map, forall_exists_index, and_imp, forall_apply_eq_imp_iff₂]
    exact forall₂_congr fun r hr => by rw [h r hr]; simp [Fl.le]
  · simp only [List.mem_map, forall_exists_index, and_imp, forall_apply_eq_imp_iff₂]
    intro r hr; rw [h r hr]; simp

example : testPasses ([(1, 2, 1 / 8), (3, 6, 0)].map fun r : ℚ × ℚ × ℚ => (.num r.1, .num r.2.1, .num r.2.2)) (.num (1 / 4)) (fun x => match x with | .num q => .num (2 * q) | y => y) = true := by
  rw [C70_numbers _ _ (fun q => 2 * q) (by simp) _ (by norm_num)]
  norm_num [abs_le]

/-- **C70** is false: a function that only ever returns NaN passes every accuracy test. -/
theorem C70_nan_passes (rows : List (Fl × Fl × Fl)) (q : ℚ) (hq : 0 ≤ q) : testPasses rows (.num q) (fun _ => .nan) = true := by
  rw [C70_passes_iff rows _ q hq]
  intro r _
  left; unfold rowError
  simp [Fl.sub, Fl.abs]

/-- **C70** The reported row is one with the largest error: no number error exceeds the reported one, which is 0 or that of the reported row. -/
theorem C70_reports_worst (rows : List (Fl × Fl × Fl)) (f : Fl → Fl) :
    (∀ r ∈ rows, rowError f r = .nan ∨ (rowError f r).le (worst rows f).err = true) ∧
    ((worst rows f).err = .num 0 ∨ ∃ r ∈ rows, worst rows f = ⟨rowError f r, f r.1, r.2.1, r.1⟩) := by
  constructor
  · have h := worst_le f (worst rows f).err rows ⟨.num 0, .num 0, .num 0, .num 0⟩ (by simp)
    have hr : ∀ x : Fl, x ≠ .nan → x.le x = true := by
      intro x hx; cases x <;> simp_all [Fl.le]
    exact (h.2.1 (hr _ h.1)).2
  · have key : ∀ (rs : List (Fl × Fl × Fl)) (w : Worst), rs.foldl (worstStep f) w = w ∨
        ∃ r ∈ rs, rs.foldl (worstStep f) w = ⟨rowError f r, f r.1, r.2.1, r.1⟩ := by
      intro rs
      induction rs with
      | nil => intro w; exact .inl rfl
      | cons a as ih =>
        intro w
        rw [List.foldl_cons]
        rcases ih (worstStep f w a) with h | ⟨r, hr, h⟩
        · rw [h]
          by_cases hlt : w.err.lt (refError (f a.1) a.2.1 a.2.2) = true
          · right; exact ⟨a, by simp, by simp only [worstStep, hlt, if_true]; rfl⟩
          · left; simp [worstStep, hlt]
        · exact .inr ⟨r, by simp [hr], h⟩
    rcases key rows ⟨.num 0, .num 0, .num 0, .num 0⟩ with h | h
    · left; unfold worst; rw [h]
    · exact .inr h

example : testPasses [(.num 1, .num 2, .num 0), (.num 3, .num 6, .num 0)] (.num (1 / 10)) (fun | .num x => .num (2 * x + 1 / 20) | _ => .nan) = true ∧
    testPasses [(.num 1, .num 2, .num 0), (.num 3, .num 6, .num 0)] (.num (1 / 10)) (fun | .num x => .num (3 * x) | _ => .nan) = false := by
  decide +kernel

/-! ## C62: the histogram test -/

/-- **C62** A finite sample belongs to bucket `k` exactly when it lies in the `k`-th of the equal intervals between `min` and `max`. -/
theorem C62_bucket (min max : ℚ) (nb : ℕ) (h : min < max) (hb : 0 < nb) (y : ℚ) (k : ℤ) :
    bucketIndex min max nb (.num y) = k ↔ min + k * ((max - min) / nb) ≤ y ∧ y < min + (k + 1) * ((max - min) / nb) := by
  have h0 : 0 < max - min := by linarith
  have hn : (0 : ℚ) < nb := by exact_mod_cast hb
  unfold bucketIndex
  simp only []
  rw [Int.floor_eq_iff]
  have e1 : (y - min) / (max - min) * nb = (y - min) / ((max - min) / nb) := by field_simp
  rw [e1, le_div_iff₀ (by positivity), div_lt_iff₀ (by positivity)]
  constructor <;> rintro ⟨h1, h2⟩ <;> constructor <;> linarith

theorem countSample_length (min max : ℚ) (nb : ℕ) (h : List ℕ) (y : Fl) : (countSample min max nb h y).length = h.length := by
  unfold countSample; simp only []; split <;> simp

theorem countSample_get (min max : ℚ) (nb : ℕ) (h : List ℕ) (hl : h.length = nb) (y : Fl) (k : ℕ) (hk : k < nb) :
    (countSample min max nb h y).getD k 0 = h.getD k 0 + if bucketIndex min max nb y = k then 1 else 0 := by
  unfold countSample
  simp only []
  have hk' : k < h.length := by omega
  by_cases hi : 0 ≤ bucketIndex min max nb y ∧ bucketIndex min max nb y < nb
  · rw [if_pos hi]
    by_cases he : bucketIndex min max nb y = k
    · have : (bucketIndex min max nb y).toNat = k := by omega
      rw [if_pos he, this]
      simp [List.getD_eq_getElem?_getD, hk']
    · have : (bucketIndex min max nb y).toNat ≠ k := by omega
      rw [if_neg he]
      simp [List.getD_eq_getElem?_getD, this]
  · rw [if_neg hi, if_neg (by omega)]
    rfl

/-- **C62** The count of a bucket is the number of samples that fall into it. -/
theorem C62_counts (min max : ℚ) (nb niter : ℕ) (sample : ℕ → Fl) (k : ℕ) (hk : k < nb) :
    (histogram min max nb niter sample).getD k 0 = (List.range niter).countP (fun i => bucketIndex min max nb (sample i) = k) := by
  have key : ∀ (l : List Fl) (h : List ℕ), h.length = nb →
      (l.foldl (countSample min max nb) h).getD k 0 = h.getD k 0 + l.countP (fun y => bucketIndex min max nb y = k) := by
    intro l
    induction l with
    | nil => intro h _; simp
    | cons y ys ih =>
      intro h hl
      rw [List.foldl_cons, ih _ (by rw [countSample_length, hl]), countSample_get _ _ _ _ hl _ _ hk, List.countP_cons]
      simp only [decide_eq_true_eq]
      omega
  unfold histogram
  rw [key _ _ (by simp)]
  rw [List.countP_map]
  have : (List.replicate nb 0).getD k 0 = 0 := by simp [List.getD_eq_getElem?_getD, hk]
  rw [this, zero_add]; rfl

/-- The error of bucket `i`. -/
def bucketError (min max : ℚ) (nb niter : ℕ) (pdf : ℚ → Fl) (h : List ℕ) (i : ℕ) : Fl :=
  ((Fl.num (densityEst min max nb niter h i)).sub (pdf (bucketMid min max nb i))).abs

/-- **C62** What is reported is the error of the last bucket. -/
theorem C62_reports_last (min max : ℚ) (nb niter : ℕ) (pdf : ℚ → Fl) (h : List ℕ) (hb : 0 < nb) :
    histogramError min max nb niter pdf h = bucketError min max nb niter pdf h (nb - 1) := by
  obtain ⟨m, rfl⟩ : ∃ m, nb = m + 1 := ⟨nb - 1, by omega⟩
  unfold histogramError
  rw [List.range_succ, List.foldl_append]
  simp [bucketError]

/-- **C62** (errors that grow from bucket to bucket.)  Full claim: the reported number is the largest error; false, see `C62_not_the_maximum`. -/
theorem C62_reports_max_partial (min max : ℚ) (nb niter : ℕ) (pdf : ℚ → Fl) (h : List ℕ) (hb : 0 < nb)
    (hm : ∀ i j, i ≤ j → j < nb → (bucketError min max nb niter pdf h i).le (bucketError min max nb niter pdf h j) = true) :
    ∀ i, i < nb → (bucketError min max nb niter pdf h i).le (histogramError min max nb niter pdf h) = true := by
  intro i hi
  rw [C62_reports_last _ _ _ _ _ _ hb]
  exact hm i (nb - 1) (by omega) (by omega)

/-- A bad uniform generator: the first 31250 numbers are 63/64, all others 0. -/
def badSample (i : ℕ) : Fl := .num (if i < 31250 then 63 / 64 else 0)

theorem count_lt (a : ℕ) : ∀ n, a ≤ n → (List.range n).countP (fun i => decide (i < a)) = a := by
  intro n h
  obtain ⟨m, rfl⟩ : ∃ m, n = a + m := ⟨n - a, by omega⟩
  clear h
  induction m with
  | zero =>
    rw [List.countP_eq_length.2 (by simp)]; simp
  | succ m ih =>
    rw [← add_assoc, List.range_succ, List.countP_append, ih]
    simp

theorem bad_bucket (i : ℕ) : bucketIndex 0 1 32 (badSample i) = if i < 31250 then 31 else 0 := by
  show ⌊((if i < 31250 then 63 / 64 else 0 : ℚ) - 0) / (1 - 0) * ((32 : ℕ) : ℚ)⌋ = _
  split <;> rw [Int.floor_eq_iff] <;> norm_num

theorem bad_counts (N : ℕ) (hN : 31250 ≤ N) : (histogram 0 1 32 N badSample).getD 31 0 = 31250 ∧ (histogram 0 1 32 N badSample).getD 0 0 = N - 31250 := by
  constructor
  · rw [C62_counts _ _ _ _ _ _ (by norm_num), ← count_lt 31250 N hN]
    refine List.countP_congr fun i _ => ?_
    rw [bad_bucket]
    by_cases hi : i < 31250
    · rw [if_pos hi]; simp only [hi]; decide
    · rw [if_neg hi]; simp only [hi]; decide
  · rw [C62_counts _ _ _ _ _ _ (by norm_num)]
    have hc := List.length_eq_countP_add_countP (fun i => decide (i < 31250)) (l := List.range N)
    rw [List.length_range, count_lt 31250 N hN] at hc
    have : (List.range N).countP (fun i => decide (bucketIndex 0 1 32 (badSample i) = ((0 : ℕ) : ℤ))) =
        (List.range N).countP (fun i => decide ¬ (decide (i < 31250) = true)) := by
      refine List.countP_congr fun i _ => ?_
      rw [bad_bucket]
      by_cases hi : i < 31250
      · rw [if_pos hi]; simp only [hi]; decide
      · rw [if_neg hi]; simp only [hi]; decide
    rw [this]; omega

/-- **C62** is false: with the library's own 32 buckets, a million samples and the density 1 on [0, 1], the bad generator passes although its first
bucket is wrong by 30. -/
theorem C62_not_the_maximum : histogramPasses 0 1 (fun _ => .num 1) badSample = true ∧
    ∀ N, N = 1000000 → bucketError 0 1 32 N (fun _ => .num 1) (histogram 0 1 32 N badSample) 0 = .num 30 := by
  have key : ∀ N, N = 1000000 → (histogramError 0 1 32 N (fun _ => .num 1) (histogram 0 1 32 N badSample)).lt (.num (1 / 1000)) = true ∧
      bucketError 0 1 32 N (fun _ => .num 1) (histogram 0 1 32 N badSample) 0 = .num 30 := by
    intro N hN
    obtain ⟨h31, h0⟩ := bad_counts N (by omega)
    constructor
    · rw [C62_reports_last _ _ _ _ _ _ (by norm_num)]
      simp only [bucketError, densityEst, h31]
      rw [hN]
      norm_num [Fl.sub, Fl.abs, Fl.lt]
    · simp only [bucketError, densityEst, h0]
      rw [hN]
      norm_num [Fl.sub, Fl.abs]
  exact ⟨(key _ rfl).1, fun N hN => (key N hN).2⟩

/-- **C62** NaN samples are counted, in the first bucket. -/
theorem C62_nan_counted (min max : ℚ) (nb niter : ℕ) (hb : 0 < nb) :
    (histogram min max nb niter (fun _ => .nan)).getD 0 0 = niter := by
  rw [C62_counts _ _ _ _ _ _ hb]
  rw [List.countP_eq_length.2 (by simp [bucketIndex])]; simp

example : histogram 0 1 4 5 (fun i => .num (i / 5)) = [2, 1, 1, 1] := by decide +kernel

/-! ## C71: the unit of the accuracy limit -/

/-- The distance between neighbouring floats in `[1/2, 1)`. -/
theorem C71_lsb (F : FloatFmt) (hF : F.Ok) (h3 : 3 ≤ F.ebits) (f : ℕ) (hf : f + 1 < 2 ^ F.mant) :
    ∃ a b : ℝ, F.decode ((F.bias - 1) * 2 ^ F.mant + f) = .f a ∧ F.decode ((F.bias - 1) * 2 ^ F.mant + (f + 1)) = .f b ∧
      1 / 2 ≤ a ∧ b < 1 ∧ b - a = 1 / 2 ^ (F.mant + 1) := by
  have hb : 2 ≤ F.bias := by
    have : 2 ^ 2 ≤ 2 ^ (F.ebits - 1) := Nat.pow_le_pow_right (by norm_num) (by omega)
    unfold FloatFmt.bias; omega
  have h2 := FloatFmt.two_bias hF
  have e1 : (2 : ℝ) ^ (((F.bias - 1 : ℕ) : ℤ) - (F.bias : ℤ)) = 1 / 2 := by
    rw [show ((F.bias - 1 : ℕ) : ℤ) - (F.bias : ℤ) = -1 by omega]; norm_num
  have hp : (0 : ℝ) < 2 ^ F.mant := by positivity
  have hf' : ((f : ℝ) + 1) / 2 ^ F.mant < 1 := by
    rw [div_lt_one hp]; exact_mod_cast hf
  refine ⟨_, _, FloatFmt.decode_normal (by omega) (by omega) (Nat.lt_of_succ_lt hf), FloatFmt.decode_normal (by omega) (by omega) hf, ?_, ?_, ?_⟩
  · rw [e1]
    have : (0 : ℝ) ≤ f / 2 ^ F.mant := by positivity
    linarith
  · rw [e1]; push_cast; linarith
  · rw [e1]; push_cast; rw [pow_succ]; field_simp; ring

/-- **C71** (64 bits.)  A limit of one unit is the distance between neighbouring floats in `[1/2, 1)`.

Full claim: at both widths; false for 32 bits, see `C71_unit32_wrong`. -/
theorem C71_unit64_partial : ((accuracyLimit false 1 1 : ℚ) : ℝ) = 1 / 2 ^ (FloatFmt.f64.mant + 1) := by
  norm_num [accuracyLimit, FloatFmt.f64]

/-- **C71** is false for 32 bits: the unit is twice the distance between neighbouring floats in `[1/2, 1)`. -/
theorem C71_unit32_wrong : ((accuracyLimit true 1 1 : ℚ) : ℝ) = 2 * (1 / 2 ^ (FloatFmt.f32.mant + 1)) := by
  norm_num [accuracyLimit, FloatFmt.f32]

example : FloatFmt.f32.Ok ∧ FloatFmt.f64.Ok ∧ 3 ≤ FloatFmt.f32.ebits ∧ 3 ≤ FloatFmt.f64.ebits ∧ 5 + 1 < 2 ^ FloatFmt.f32.mant := ⟨FloatFmt.ok32, FloatFmt.ok64, by decide, by decide, by decide⟩

/-! ## C72: the rows of the accuracy test -/

section
variable {ext : BdExt} {n : ℕ}

theorem evals_usize (k : ℕ) : EvalsTo ext n (usizeLit k) k 0 := by
  have h := canon_parse ⟨k, 0⟩
  cases hp : parseDec (displayDec ⟨k, 0⟩) with
  | none => rw [hp] at h; simp at h
  | some d =>
    rw [hp] at h
    have := C67_lit (ext := ext) (n := n) (l := .int (displayDec ⟨k, 0⟩) "usize") (q := k) (by
      simp only [Option.map_some, Option.some.injEq] at h
      simp only [litValue, hp, Option.map_some, h]
      simp [Dec.val])
    simpa [usizeLit] using this

/-- **C72** The sample points are `min + i (max - min) / n`, up to the errors of `min` and `max` and two units of the last digit. -/
theorem C72_points {tmin tmax : Expr} {a b εa εb : ℝ} (ha : EvalsTo ext n tmin a εa) (hb : EvalsTo ext n tmax b εb) (N i : ℕ) (hN : 0 < N) (hi : i ≤ N) :
    EvalsTo ext n (samplePoint tmin tmax N i) (a + i * (b - a) / N) (4 * εa + 3 * εb + 2 * (1 / 10 ^ n) + 1 / 10 ^ 99 * |b - a|) := by
  have hN' : (1 : ℝ) ≤ N := by exact_mod_cast hN
  have hN0 : (0 : ℝ) < N := by linarith
  have hi' : (i : ℝ) ≤ N := by exact_mod_cast hi
  have h0 : (0 : ℝ) ≤ i := by positivity
  have hεa : 0 ≤ εa := by obtain ⟨_, _, _, _, h⟩ := ha; exact (abs_nonneg _).trans h
  have hεb : 0 ≤ εb := by obtain ⟨_, _, _, _, h⟩ := hb; exact (abs_nonneg _).trans h
  have h1 := C67_mul (evals_usize (ext := ext) (n := n) i) (C67_paren (C67_sub (C67_paren hb) (C67_paren ha)))
  have h2 := C67_div h1 (C67_paren (evals_usize (ext := ext) (n := n) N)) hN0.ne' (by positivity)
  have h3 := C67_paren (C67_paren (C67_add h2 (C67_paren ha)))
  have h4 := h3.mono (ε' := 4 * εa + 3 * εb + 2 * (1 / 10 ^ n) + 1 / 10 ^ 99 * |b - a|) ?_
  · rw [add_comm a]; exact h4
  · have hu : (0 : ℝ) < 1 / 10 ^ n := by positivity
    have hq : |(i : ℝ) * (b - a) / N| ≤ |b - a| := by
      rw [abs_div, abs_mul, abs_of_pos hN0, abs_of_nonneg h0, div_le_iff₀ hN0]
      nlinarith [abs_nonneg (b - a)]
    have hw : (i * (εb + εa) + 1 / 2 * (1 / 10 ^ n)) / N ≤ εb + εa + 1 / 2 * (1 / 10 ^ n) := by
      rw [div_le_iff₀ hN0]
      nlinarith [mul_le_mul_of_nonneg_right hi' (by linarith : 0 ≤ εb + εa), mul_le_mul_of_nonneg_right hN' hu.le]
    rw [abs_of_nonneg h0, abs_of_pos hN0]
    simp only [mul_zero, zero_mul, add_zero]
    rw [mul_div_assoc 2]
    generalize (i * (εb + εa) + 1 / 2 * (1 / 10 ^ n)) / (N : ℝ) = w at hw
    generalize |(i : ℝ) * (b - a) / N| = q at hq
    have e : (1 + 1 / 10 ^ 99 : ℝ) ≤ 5 / 4 := by norm_num
    have : (1 + 1 / 10 ^ 99 : ℝ) * (2 * w) ≤ 5 / 4 * (2 * (εb + εa + 1 / 2 * (1 / 10 ^ n))) := by
      by_cases hw0 : 0 ≤ w
      · exact mul_le_mul e (by linarith) (by linarith) (by norm_num)
      · have : (1 + 1 / 10 ^ 99 : ℝ) * (2 * w) ≤ 0 := mul_nonpos_of_nonneg_of_nonpos (by norm_num) (by linarith)
        have h9 : 0 ≤ 5 / 4 * (2 * (εb + εa + 1 / 2 * (1 / 10 ^ n))) := by positivity
        linarith
    have h7 : 1 / 10 ^ 99 * q ≤ 1 / 10 ^ 99 * |b - a| := by gcongr
    linarith

/-- Evaluation depends only on what the names evaluate to. -/
theorem eval_mapLeaves_congr (m : ℤ) (f g : Name → Expr) (h : ∀ p, eval ext m (f p) = eval ext m (g p)) :
    ∀ e : Expr, eval ext m (e.mapLeaves .lit f) = eval ext m (e.mapLeaves .lit g) := by
  have args : ∀ l : List Expr, (∀ a ∈ l, eval ext m (a.mapLeaves .lit f) = eval ext m (a.mapLeaves .lit g)) →
      evalArgs ext m (Expr.mapLeavesArgs .lit f l) = evalArgs ext m (Expr.mapLeavesArgs .lit g l) := by
    intro l
    induction l with
    | nil => intro _; simp [Expr.mapLeavesArgs]
    | cons a as ih =>
      intro ha
      rw [Expr.mapLeavesArgs, Expr.mapLeavesArgs, evalArgs, evalArgs, ha a (by simp), ih (fun b hb => ha b (by simp [hb]))]
  apply Expr.ind
  · intro op e ih; simp only [Expr.mapLeaves, eval, ih]
  · intro l op r ihl ihr; simp only [Expr.mapLeaves, eval, ihl, ihr]
  · intro r m as ihr iha; simp only [Expr.mapLeaves, eval, ihr, args as iha]
  · intro e ih; simp only [Expr.mapLeaves, eval, ih]
  · intro l; simp only [Expr.mapLeaves, eval]
  · intro p; simp only [Expr.mapLeaves, h]
  · intro b m ih; simp only [Expr.mapLeaves, eval, ih]
  · intro r as ihr iha; simp only [Expr.mapLeaves, eval]
  · intro k; simp only [Expr.mapLeaves, eval]

/-- What evaluation returns is a literal or a field access. -/
theorem eval_shape (m : ℤ) : ∀ (e e' : Expr), eval ext m e = .ok e' → eval ext m e' = .ok e' ∨ ∃ b f, e' = .field b f := by
  have lit : ∀ (d : Dec), eval ext m (exprOfDec d) = .ok (exprOfDec d) := fun d => by unfold exprOfDec; rw [eval]; rfl
  have bool : ∀ (d : Bool), eval ext m (exprOfBool d) = .ok (exprOfBool d) := fun d => by unfold exprOfBool; rw [eval]; rfl
  apply Expr.ind
  · intro op e ih e' h
    rw [eval, Res.bind_eq_ok] at h
    obtain ⟨t, _, h⟩ := h
    split at h
    · rw [Res.bind_eq_ok] at h
      obtain ⟨d, _, h⟩ := h
      cases op <;> cases h
      exact .inl (lit _)
    · cases h
  · intro l op r ihl ihr e' h
    rw [eval, Res.bind_eq_ok] at h
    obtain ⟨t, _, h⟩ := h
    rw [Res.bind_eq_ok] at h
    obtain ⟨u, _, h⟩ := h
    split at h
    · rw [Res.bind_eq_ok] at h
      obtain ⟨a, _, h⟩ := h
      rw [Res.bind_eq_ok] at h
      obtain ⟨b, _, h⟩ := h
      left
      cases op <;> simp only [evalBinop, Res.bind_eq_ok] at h <;> first
        | (obtain ⟨q, _, h⟩ := h; cases h; exact lit _)
        | (cases h; exact lit _)
        | (cases h; exact bool _)
        | cases h
    · cases h
  · intro r mm as ihr iha e' h
    rw [eval] at h
    simp only [Res.bind_eq_ok] at h
    obtain ⟨_, _, _, _, _, _, _, _, d, _, h⟩ := h
    cases h; exact .inl (lit _)
  · intro e ih e' h
    rw [eval] at h; exact ih e' h
  · intro l e' h
    rw [eval] at h; cases h
    left; rw [eval]; rfl
  · intro p e' h
    rw [eval] at h
    split at h
    · rw [Res.bind_eq_ok] at h
      obtain ⟨d, _, h⟩ := h
      cases h; exact .inl (lit _)
    · cases h
  · intro b f ih e' h
    rw [eval, Res.bind_eq_ok] at h
    obtain ⟨t, _, h⟩ := h
    cases h; exact .inr ⟨_, _, rfl⟩
  · intro r as _ _ e' h
    rw [eval] at h; cases h
  · intro k e' h
    rw [eval] at h; cases h

/-- **C72** A row of the table: the reference value is that of the reference expression **at the number emitted as `x`** (not at the unrounded
point), and the emitted `y` and correction add up to it exactly. -/
theorem C72_row {digits bits N i : ℕ} {ref tmin tmax x y ye : Expr} (h : sampleRow ext digits bits ref tmin tmax N i = .ok (x, y, ye)) :
    ∃ (s v : Expr) (dv dy de : Dec), subst ref ⟨[(["x"], x)]⟩ = .ok s ∧ eval ext digits s = .ok v ∧ exprToDec v = .ok dv ∧
      exprToDec y = .ok dy ∧ exprToDec ye = .ok de ∧ dy.val + de.val = dv.val ∧ ∃ dx, exprToDec x = .ok dx := by
  have un : ∀ {α : Type} (r : Res α) (a : α), r.unwrap = .ok a → r = .ok a := by
    intro α r a hr; cases r <;> simp_all [Res.unwrap]
  simp only [sampleRow, Res.bind_eq_ok] at h
  obtain ⟨x', hx, sub, hsub, v, hv, y', hy, ye', hye, h⟩ := h
  cases h
  replace hx := un _ _ hx
  replace hsub := un _ _ hsub
  replace hv := un _ _ hv
  replace hy := un _ _ hy
  replace hye := un _ _ hye
  -- the point
  have hxd : ∃ d, x = exprOfDec d := by
    rw [roundIeeeExpr, eval] at hx
    simp only [Res.bind_eq_ok] at hx
    obtain ⟨_, _, _, _, _, _, _, _, d, _, h⟩ := hx
    cases h; exact ⟨d, rfl⟩
  obtain ⟨dx, rfl⟩ := hxd
  have hxx : eval ext digits (exprOfDec dx) = .ok (exprOfDec dx) := by unfold exprOfDec; rw [eval]; rfl
  -- the rounded value
  have hyy := hy
  rw [roundIeeeExpr, eval] at hy
  simp only [Res.bind_eq_ok] at hy
  obtain ⟨r, hr, _, _, dv, hdv, _, _, dy, _, hy⟩ := hy
  cases hy
  have hvr : r = v := by
    rcases eval_shape (ext := ext) (digits : ℤ) _ _ hv with h | ⟨b, f, rfl⟩
    · rw [h] at hr; cases hr; rfl
    · exfalso
      rw [eval, Res.bind_eq_ok] at hr
      obtain ⟨t, _, hr⟩ := hr
      cases hr
      simp [exprToDec] at hdv
  subst hvr
  rw [eval_binary hr hyy hdv (exprToDec_exprOfDec _)] at hye
  cases hye
  refine ⟨ref.mapLeaves .lit (fun p => (firstBinding p [(["x"], exprOfDec dx)]).getD (.path p)), r, dv, _, _, ?_, ?_, hdv, exprToDec_exprOfDec _, exprToDec_exprOfDec _, ?_, _, exprToDec_exprOfDec _⟩
  · exact subst_supported _ _ (((C13_subst_refuses ref _).2).1 ⟨_, hsub⟩)
  · have := subst_leaves _ _ _ hsub
    rw [← hv, this]
    refine eval_mapLeaves_congr (digits : ℤ) _ _ (fun p => ?_) ref
    by_cases hp : ["x"] = p
    · simp [firstBinding, VariableList.addVar, VariableList.new, hp, hx, hxx]
    · simp [firstBinding, VariableList.addVar, VariableList.new, hp]
  · rw [val_canon, val_canon, Dec.val_sub, val_canon]; ring

end

/-- Rows for `x + 1` on `[-1, 1]` with a "float" conversion that keeps three digits. -/
def threeDigits : BdExt := { goodExt with
  toF64 := fun d => some (Dec.withScale d 3).int.toNat
  fromF64 := fun n => some ⟨n, 3⟩ }

example : (match sampleRow threeDigits 20 64 (.binary (.path ["x"]) .add (exprOfDec ⟨1, 0⟩)) (exprOfDec ⟨-1, 0⟩) (exprOfDec ⟨1, 0⟩) 3 2 with
    | .ok (x, y, e) => [exprToDec x, exprToDec y, exprToDec e]
    | _ => []) = [.ok ⟨333, 3⟩, .ok ⟨1333, 3⟩, .ok ⟨0, 3⟩] := by decide +kernel

end Verif

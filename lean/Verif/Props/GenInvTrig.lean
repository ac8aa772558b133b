import Verif.Props.GenTrig
import Mathlib.Analysis.SpecialFunctions.Trigonometric.Inverse
import Mathlib.Analysis.SpecialFunctions.Complex.Arg

/-! # C52: branches of generated `asin`, `acos`, `atan`, `atan2` -/

namespace Verif
open RExpr

section
variable {F : FloatFmt} {calls : String → List RV → RV} {g : Name → RV}

/-- The interval on which `asin` and `acos` use their polynomial: a little more than `[-√½, √½]`. -/
def asinRange : Set ℝ := Set.Icc (-(70710678118654752441 / 10 ^ 20)) (70710678118654752441 / 10 ^ 20)

theorem edge_in_range {a : ℝ} (h1 : |a| ≤ 1) (h : ¬ a * a < 70710678118654752440 / 10 ^ 20 * (70710678118654752440 / 10 ^ 20)) :
    Real.sqrt (1 - a * a) ∈ asinRange := by
  constructor
  · exact le_trans (by norm_num) (Real.sqrt_nonneg _)
  · rw [Real.sqrt_le_left (by norm_num)]
    nlinarith

theorem inner_in_range {a : ℝ} (h : a * a < 70710678118654752440 / 10 ^ 20 * (70710678118654752440 / 10 ^ 20)) :
    a ∈ asinRange := by
  have := abs_lt.1 (abs_lt_of_sq_lt_sq (by nlinarith : a ^ 2 < (70710678118654752440 / 10 ^ 20) ^ 2) (by norm_num))
  constructor <;> norm_num at * <;> linarith

/-- Arcsine at the far side of the quarter circle. -/
theorem arcsin_edge (a : ℝ) :
    Real.arcsin (Real.sqrt (1 - a * a)) = if a < 0 then Real.pi / 2 + Real.arcsin a else Real.pi / 2 - Real.arcsin a := by
  split_ifs with h
  · have := Real.arccos_eq_arcsin (x := -a) (by linarith)
    rw [show 1 - (-a) ^ 2 = 1 - a * a by ring] at this
    rw [← this, Real.arccos_neg, Real.arccos]; ring
  · have := Real.arccos_eq_arcsin (x := a) (by linarith)
    rw [show 1 - a ^ 2 = 1 - a * a by ring] at this
    rw [← this, Real.arccos]

/-- **C52** Generated `asin`: with a polynomial within `ε` of `arcsin` on (slightly more than) `[-√½, √½]` the result is within `ε` of
`arcsin a` for every `a` in `[-1, 1]`, up to the error of the constant. -/
theorem C52_asin_const {h : ℝ} (hc : g ["PI_BY_2"] = .f h) {p : RExpr} {ε : ℝ}
    (hp : Approximates (realInterp F calls) "x" p Real.arcsin asinRange ε) (a : ℝ) (ha : |a| ≤ 1) :
    ∃ y, (Gen.asin p).apply (realInterp F calls) g [.f a] = .f y ∧ |y - Real.arcsin a| ≤ ε + |h - Real.pi / 2| := by
  have hh := abs_nonneg (h - Real.pi / 2)
  have hs : 0 ≤ 1 - a * a := by nlinarith [abs_le.1 ha]
  obtain ⟨P, hP, he⟩ := hp
  simp only [Gen.asin, Gen.insideLim, Gen.edgeArg, ofFty_apply, List.map, bindParams]
  have hedge := arcsin_edge a
  by_cases hin : a * a < 70710678118654752440 / 10 ^ 20 * (70710678118654752440 / 10 ^ 20)
  · simp [hin]
    have hm := (inner_in_range hin)
    exact ⟨P a, hP _ a (by simp) hm, (he a hm).trans (by linarith)⟩
  · simp [hin, meth_sqrt F hs]
    have hm := (edge_in_range ha hin)
    have he := he _ hm
    rw [hP _ (Real.sqrt (1 - a * a)) (by simp) hm]
    generalize P ((Real.sqrt (1 - a * a))) = y at he
    have hh2 := le_abs_self (h - Real.pi / 2)
    have hh3 := neg_abs_le (h - Real.pi / 2)
    by_cases hn : a < 0
    · simp only [hn, if_true] at hedge
      refine ⟨-h - y * (-1), ?_, ?_⟩
      · simp [hn, hc]
      · rw [hedge] at he
        rw [abs_le] at he ⊢
        constructor <;> linarith
    · simp only [hn, if_false] at hedge
      refine ⟨h - y * 1, ?_, ?_⟩
      · simp [hn, hc]
      · rw [hedge] at he
        rw [abs_le] at he ⊢
        constructor <;> linarith

/-- **C52** With an exact constant only the error of the polynomial is left. -/
theorem C52_asin (hc : g ["PI_BY_2"] = .f (Real.pi / 2)) {p : RExpr} {ε : ℝ}
    (hp : Approximates (realInterp F calls) "x" p Real.arcsin asinRange ε) (a : ℝ) (ha : |a| ≤ 1) :
    ∃ y, (Gen.asin p).apply (realInterp F calls) g [.f a] = .f y ∧ |y - Real.arcsin a| ≤ ε := by
  simpa using C52_asin_const hc hp a ha

/-- **C52** The same for generated `acos`. -/
theorem C52_acos_const {h k : ℝ} (hc : g ["PI_BY_2"] = .f h) (hpi : g ["PI"] = .f k) {p : RExpr} {ε : ℝ}
    (hp : Approximates (realInterp F calls) "x" p Real.arcsin asinRange ε) (a : ℝ) (ha : |a| ≤ 1) :
    ∃ y, (Gen.acos p).apply (realInterp F calls) g [.f a] = .f y ∧ |y - Real.arccos a| ≤ ε + |h - Real.pi / 2| + |k - Real.pi| := by
  have hh := abs_nonneg (h - Real.pi / 2)
  have hh2 := le_abs_self (h - Real.pi / 2)
  have hh3 := neg_abs_le (h - Real.pi / 2)
  have hk := abs_nonneg (k - Real.pi)
  have hk2 := le_abs_self (k - Real.pi)
  have hk3 := neg_abs_le (k - Real.pi)
  have hs : 0 ≤ 1 - a * a := by nlinarith [abs_le.1 ha]
  obtain ⟨P, hP, he⟩ := hp
  simp only [Gen.acos, Gen.insideLim, Gen.edgeArg, ofFty_apply, List.map, bindParams]
  have hedge := arcsin_edge a
  by_cases hin : a * a < 70710678118654752440 / 10 ^ 20 * (70710678118654752440 / 10 ^ 20)
  · simp [hin]
    have hm := (inner_in_range hin)
    have he := he _ hm
    rw [hP _ a (by simp) hm]
    generalize P (a) = y at he
    refine ⟨h - y, ?_, ?_⟩
    · simp [hc]
    · rw [Real.arccos]
      rw [abs_le] at he ⊢
      constructor <;> linarith
  · simp [hin, meth_sqrt F hs]
    have hm := (edge_in_range ha hin)
    have he := he _ hm
    rw [hP _ (Real.sqrt (1 - a * a)) (by simp) hm]
    generalize P ((Real.sqrt (1 - a * a))) = y at he
    by_cases hn : a < 0
    · simp only [hn, if_true] at hedge
      refine ⟨k - y * 1, ?_, ?_⟩
      · simp [hn, hpi]
      · rw [hedge] at he
        rw [Real.arccos]
        rw [abs_le] at he ⊢
        constructor <;> linarith
    · simp only [hn, if_false] at hedge
      refine ⟨0 - y * (-1), ?_, ?_⟩
      · simp [hn]
      · rw [hedge] at he
        rw [Real.arccos]
        rw [abs_le] at he ⊢
        constructor <;> linarith

/-- **C52** Exact constants again leave the error of the polynomial. -/
theorem C52_acos (hc : g ["PI_BY_2"] = .f (Real.pi / 2)) (hpi : g ["PI"] = .f Real.pi) {p : RExpr} {ε : ℝ}
    (hp : Approximates (realInterp F calls) "x" p Real.arcsin asinRange ε) (a : ℝ) (ha : |a| ≤ 1) :
    ∃ y, (Gen.acos p).apply (realInterp F calls) g [.f a] = .f y ∧ |y - Real.arccos a| ≤ ε := by
  simpa using C52_acos_const hc hpi hp a ha

/-- **C52** Generated `atan`, for every real argument, up to the error of the constant. -/
theorem C52_atan_const {h : ℝ} (hc : g ["PI_BY_2"] = .f h) {p : RExpr} {ε : ℝ}
    (hp : Approximates (realInterp F calls) "x" p Real.arctan (Set.Icc (-1) 1) ε) (a : ℝ) :
    ∃ y, (Gen.atan p).apply (realInterp F calls) g [.f a] = .f y ∧ |y - Real.arctan a| ≤ ε + |h - Real.pi / 2| := by
  have hh := abs_nonneg (h - Real.pi / 2)
  have hh2 := le_abs_self (h - Real.pi / 2)
  have hh3 := neg_abs_le (h - Real.pi / 2)
  obtain ⟨P, hP, he⟩ := hp
  simp only [Gen.atan, ofFty_apply, List.map, bindParams]
  by_cases hin : |a| < 1
  · simp [hin]
    have := abs_lt.1 hin
    have hm : a ∈ Set.Icc (-1 : ℝ) 1 := ⟨this.1.le, this.2.le⟩
    exact ⟨P a, hP _ a (by simp) hm, (he a hm).trans (by linarith)⟩
  · have ha : a ≠ 0 := by rintro rfl; simp at hin
    have hr : a⁻¹ ∈ Set.Icc (-1 : ℝ) 1 := by
      have : |a⁻¹| ≤ 1 := by rw [abs_inv]; exact inv_le_one_of_one_le₀ (not_lt.1 hin)
      exact abs_le.1 this
    simp [hin, meth_recip F ha]
    have hm := hr
    have he := he _ hm
    rw [hP _ a⁻¹ (by simp) hm]
    generalize P (a⁻¹) = y at he
    by_cases hn : a < 0
    · refine ⟨-h - y, ?_, ?_⟩
      · simp [hn, hc]
      · rw [Real.arctan_inv_of_neg hn] at he
        rw [abs_le] at he ⊢
        constructor <;> linarith
    · refine ⟨h - y, ?_, ?_⟩
      · simp [hn, hc]
      · rw [Real.arctan_inv_of_pos (lt_of_le_of_ne (not_lt.1 hn) ha.symm)] at he
        rw [abs_le] at he ⊢
        constructor <;> linarith

/-- **C52** With an exact constant only the error of the polynomial is left. -/
theorem C52_atan (hc : g ["PI_BY_2"] = .f (Real.pi / 2)) {p : RExpr} {ε : ℝ}
    (hp : Approximates (realInterp F calls) "x" p Real.arctan (Set.Icc (-1) 1) ε) (a : ℝ) :
    ∃ y, (Gen.atan p).apply (realInterp F calls) g [.f a] = .f y ∧ |y - Real.arctan a| ≤ ε := by
  simpa using C52_atan_const hc hp a

/-! ## `atan2` -/

/-- Rotation by the angle whose tangent is `T`. -/
theorem arctan_rotate {t T : ℝ} (h0 : 0 ≤ t) (hT : 0 ≤ T) : Real.arctan ((t - T) / (1 + t * T)) = Real.arctan t - Real.arctan T := by
  have h := Real.arctan_add (x := t) (y := -T) (by nlinarith [mul_nonneg h0 hT])
  rw [Real.arctan_neg] at h
  rw [← sub_eq_add_neg] at h
  rw [h]; congr 1; ring

theorem rotated_range {t T : ℝ} (h0 : 0 ≤ t) (h1 : t ≤ 1) (hT : 0 ≤ T) : (t - T) / (1 + t * T) ∈ Set.Icc (-T) ((1 - T) / (1 + T)) := by
  have hp : 0 < 1 + t * T := by positivity
  constructor
  · rw [le_div_iff₀ hp]; nlinarith [mul_nonneg h0 (mul_nonneg hT hT)]
  · rw [div_le_div_iff₀ hp (by positivity)]; nlinarith [mul_nonneg hT hT]

theorem tan_eighth : Real.tan (Real.pi / 8) = (1 - Real.tan (Real.pi / 8)) / (1 + Real.tan (Real.pi / 8)) := by
  have hpi := Real.pi_pos
  have hT : 0 < Real.tan (Real.pi / 8) := Real.tan_pos_of_pos_of_lt_pi_div_two (by linarith) (by linarith)
  have h := arctan_rotate (t := 1) zero_le_one hT.le
  rw [Real.arctan_one, Real.arctan_tan (by linarith) (by linarith), one_mul] at h
  have h2 := congrArg Real.tan h
  rw [Real.tan_arctan] at h2
  rw [h2]; congr 1; ring

/-- Cosine and sine of the angle under a point of the right half plane. -/
theorem cos_sin_arctan {x y : ℝ} (hx : 0 < x) :
    Real.sqrt (x * x + y * y) * Real.cos (Real.arctan (y / x)) = x ∧ Real.sqrt (x * x + y * y) * Real.sin (Real.arctan (y / x)) = y := by
  have h : Real.sqrt (x * x + y * y) = x * Real.sqrt (1 + (y / x) ^ 2) := by
    rw [show x * x + y * y = x ^ 2 * (1 + (y / x) ^ 2) by field_simp, Real.sqrt_mul (sq_nonneg x), Real.sqrt_sq hx.le]
  have hp : 0 < Real.sqrt (1 + (y / x) ^ 2) := Real.sqrt_pos.2 (by positivity)
  rw [Real.cos_arctan, Real.sin_arctan, h]
  constructor <;> field_simp

/-- The angle of a point, put together as the generated code does. -/
theorem arg_by_octants {x y : ℝ} (h : x ≠ 0 ∨ y ≠ 0) :
    let t := (if |y| < |x| then |y| else |x|) / (if |y| < |x| then |x| else |y|)
    let q1 := if |y| < |x| then Real.arctan t else Real.pi / 2 - Real.arctan t
    let q12 := if 0 ≤ x then q1 else Real.pi - q1
    Complex.arg (x + y * Complex.I) = if 0 ≤ y then q12 else -q12 := by
  intro t q1 q12
  have hpi := Real.pi_pos
  set r := Real.sqrt (x * x + y * y) with hr
  have hrpos : 0 < r := by
    apply Real.sqrt_pos.2
    rcases h with h | h
    · have := mul_self_pos.2 h; nlinarith [mul_self_nonneg y]
    · have := mul_self_pos.2 h; nlinarith [mul_self_nonneg x]
  have hrabs : Real.sqrt (|x| * |x| + |y| * |y|) = r := by rw [abs_mul_abs_self, abs_mul_abs_self]
  have hrabs' : Real.sqrt (|y| * |y| + |x| * |x|) = r := by rw [add_comm, hrabs]
  have hq : r * Real.cos q1 = |x| ∧ r * Real.sin q1 = |y| ∧ 0 ≤ q1 ∧ q1 ≤ Real.pi / 2 := by
    simp only [q1, t]
    split_ifs with hlt
    · have hx : 0 < |x| := lt_of_le_of_lt (abs_nonneg y) hlt
      obtain ⟨h1, h2⟩ := cos_sin_arctan (y := |y|) hx
      rw [hrabs] at h1 h2
      refine ⟨h1, h2, ?_, (Real.arctan_lt_pi_div_two _).le⟩
      rw [← Real.arctan_zero]; exact Real.arctan_strictMono.monotone (by positivity)
    · have hy : 0 < |y| := by
        rcases h with h | h
        · exact lt_of_lt_of_le (abs_pos.2 h) (not_lt.1 hlt)
        · exact abs_pos.2 h
      obtain ⟨h1, h2⟩ := cos_sin_arctan (y := |x|) hy
      rw [hrabs'] at h1 h2
      refine ⟨by rw [Real.cos_pi_div_two_sub]; exact h2, by rw [Real.sin_pi_div_two_sub]; exact h1, ?_, ?_⟩
      · linarith [Real.arctan_lt_pi_div_two (|x| / |y|)]
      · have : 0 ≤ Real.arctan (|x| / |y|) := by
          rw [← Real.arctan_zero]; exact Real.arctan_strictMono.monotone (by positivity)
        linarith
  obtain ⟨hc, hs, h0, h1⟩ := hq
  have hq12 : r * Real.cos q12 = x ∧ r * Real.sin q12 = |y| ∧ 0 ≤ q12 ∧ q12 ≤ Real.pi ∧ (q12 = Real.pi → y = 0) := by
    have hend : ∀ q : ℝ, q = Real.pi → r * Real.sin q = |y| → y = 0 := by
      rintro q rfl h; rw [Real.sin_pi, mul_zero] at h; exact abs_eq_zero.1 h.symm
    by_cases hx : 0 ≤ x
    · have e : q12 = q1 := if_pos hx
      rw [e]
      exact ⟨by rw [hc, abs_of_nonneg hx], hs, h0, by linarith, fun h => hend _ h hs⟩
    · have e : q12 = Real.pi - q1 := if_neg hx
      rw [e]
      have hs' : r * Real.sin (Real.pi - q1) = |y| := by rw [Real.sin_pi_sub]; exact hs
      refine ⟨?_, hs', by linarith, by linarith, fun h => hend _ h hs'⟩
      rw [Real.cos_pi_sub, mul_neg, hc, abs_of_neg (not_le.1 hx), neg_neg]
  obtain ⟨hc, hs, h0, h1, hend⟩ := hq12
  have fin : ∀ θ : ℝ, r * Real.cos θ = x → r * Real.sin θ = y → θ ∈ Set.Ioc (-Real.pi) Real.pi → Complex.arg (x + y * Complex.I) = θ := by
    intro θ h1 h2 h3
    rw [← Complex.arg_mul_cos_add_sin_mul_I hrpos h3]
    congr 1
    have e1 : (x : ℂ) = r * Complex.cos θ := by rw [← h1]; push_cast; rfl
    have e2 : (y : ℂ) = r * Complex.sin θ := by rw [← h2]; push_cast; rfl
    rw [e1, e2]; ring
  split_ifs with hy
  · exact fin _ hc (by rw [hs, abs_of_nonneg hy]) ⟨by linarith, h1⟩
  · refine fin _ (by rw [Real.cos_neg]; exact hc) (by rw [Real.sin_neg, mul_neg, hs, abs_of_neg (not_le.1 hy), neg_neg]) ⟨?_, by linarith⟩
    have : q12 ≠ Real.pi := fun h => hy (le_of_eq (hend h).symm)
    have := lt_of_le_of_ne h1 this
    linarith

/-- The four constants of `atan2`. -/
structure Atan2Consts (g : Name → RV) : Prop where
  pi : g ["PI"] = .f Real.pi
  half : g ["PI_BY_2"] = .f (Real.pi / 2)
  eighth : g ["PI_BY_8"] = .f (Real.pi / 8)
  tan : g ["TAN_PI_BY_8"] = .f (Real.tan (Real.pi / 8))

/-- **C52** Generated `atan2(y, x)` is close to the angle of the point `(x, y)`, in every quadrant and on the axes, for every point but the
origin.  The polynomial has to be within `ε` of `arctan` on an interval with the rotated arguments; the rotation is by the angle whose tangent
is the constant `TAN_PI_BY_8`. -/
theorem C52_atan2_const {k h e T : ℝ} (hk : g ["PI"] = .f k) (hh : g ["PI_BY_2"] = .f h) (he8 : g ["PI_BY_8"] = .f e)
    (ht : g ["TAN_PI_BY_8"] = .f T) (hT : 0 ≤ T) {p : RExpr} {ε V : ℝ} (hV : T ≤ V) (hV' : (1 - T) / (1 + T) ≤ V)
    (hp : Approximates (realInterp F calls) "z" p Real.arctan (Set.Icc (-V) V) ε)
    (x y : ℝ) (hxy : x ≠ 0 ∨ y ≠ 0) :
    ∃ a, (Gen.atan2 p).apply (realInterp F calls) g [.f y, .f x] = .f a ∧
      |a - Complex.arg (x + y * Complex.I)| ≤ ε + |e - Real.arctan T| + |h - Real.pi / 2| + |k - Real.pi| := by
  obtain ⟨P, hP, he⟩ := hp
  have harg := arg_by_octants hxy
  simp only at harg
  rw [harg]; clear harg
  simp only [Gen.atan2, ofFty_apply, List.map, bindParams]
  have core : ∀ u w : ℝ, 0 ≤ u → u ≤ w → 0 < w → T * u + w ≠ 0 ∧ (-T * w + u) / (T * u + w) ∈ Set.Icc (-V) V ∧
      |P ((-T * w + u) / (T * u + w)) + Real.arctan T - Real.arctan (u / w)| ≤ ε := by
    intro u w hu huw hw
    have hne : T * u + w ≠ 0 := by positivity
    have hne' : 1 + u / w * T ≠ 0 := by positivity
    have e : (-T * w + u) / (T * u + w) = (u / w - T) / (1 + u / w * T) := by
      rw [div_eq_div_iff hne hne']; field_simp; ring
    have hm' := rotated_range (t := u / w) (by positivity) ((div_le_one hw).2 huw) hT
    have hm : (u / w - T) / (1 + u / w * T) ∈ Set.Icc (-V) V := ⟨by linarith [hm'.1], by linarith [hm'.2]⟩
    rw [e]
    refine ⟨hne, hm, ?_⟩
    have h1 := he _ hm
    rw [arctan_rotate (by positivity) hT] at h1
    rwa [show ∀ q : ℝ, q + Real.arctan T - Real.arctan (u / w) = q - (Real.arctan (u / w) - Real.arctan T) from fun q => by ring]
  have e1 := abs_nonneg (e - Real.arctan T)
  have e2 := le_abs_self (e - Real.arctan T)
  have e3 := neg_abs_le (e - Real.arctan T)
  have h1 := abs_nonneg (h - Real.pi / 2)
  have h2 := le_abs_self (h - Real.pi / 2)
  have h3 := neg_abs_le (h - Real.pi / 2)
  have k1 := abs_nonneg (k - Real.pi)
  have k2 := le_abs_self (k - Real.pi)
  have k3 := neg_abs_le (k - Real.pi)
  by_cases hlt : |y| < |x|
  · obtain ⟨hne, hm, hb⟩ := core |y| |x| (abs_nonneg _) hlt.le (lt_of_le_of_lt (abs_nonneg _) hlt)
    simp only [hlt, if_true]
    simp [hlt, ht, bin_div hne]
    rw [hP _ _ (by simp [← neg_mul]) hm]
    generalize P _ = q at hb ⊢
    generalize Real.arctan (|y| / |x|) = r at hb ⊢
    rw [abs_le] at hb
    by_cases hx : 0 ≤ x <;> by_cases hy : 0 ≤ y <;> simp [hx, hy, hk, he8] <;>
      rw [abs_le] <;> constructor <;> linarith
  · have hpos : 0 < |y| := by
      rcases hxy with h | h
      · exact lt_of_lt_of_le (abs_pos.2 h) (not_lt.1 hlt)
      · exact abs_pos.2 h
    obtain ⟨hne, hm, hb⟩ := core |x| |y| (abs_nonneg _) (not_lt.1 hlt) hpos
    simp only [hlt, if_false]
    simp [hlt, ht, bin_div hne]
    rw [hP _ _ (by simp [← neg_mul]) hm]
    generalize P _ = q at hb ⊢
    generalize Real.arctan (|x| / |y|) = r at hb ⊢
    rw [abs_le] at hb
    by_cases hx : 0 ≤ x <;> by_cases hy : 0 ≤ y <;> simp [hx, hy, hk, he8, hh] <;>
      rw [abs_le] <;> constructor <;> linarith

/-- **C52** With exact constants `atan2(y, x)` is within `ε` of the angle if the polynomial is within `ε` of `arctan` on
`[-tan π/8, tan π/8]`. -/
theorem C52_atan2 (hg : Atan2Consts g) {p : RExpr} {ε : ℝ}
    (hp : Approximates (realInterp F calls) "z" p Real.arctan (Set.Icc (-Real.tan (Real.pi / 8)) (Real.tan (Real.pi / 8))) ε)
    (x y : ℝ) (h : x ≠ 0 ∨ y ≠ 0) :
    ∃ a, (Gen.atan2 p).apply (realInterp F calls) g [.f y, .f x] = .f a ∧ |a - Complex.arg (x + y * Complex.I)| ≤ ε := by
  have hpi := Real.pi_pos
  have hT : 0 < Real.tan (Real.pi / 8) := Real.tan_pos_of_pos_of_lt_pi_div_two (by linarith) (by linarith)
  have := C52_atan2_const hg.pi hg.half hg.eighth hg.tan hT.le le_rfl tan_eighth.ge hp x y h
  rw [Real.arctan_tan (by linarith) (by linarith)] at this
  simpa using this

/-- **C52** At the origin the quotient is `0/0`: the polynomial is given a NaN. -/
theorem C52_atan2_origin (hg : Atan2Consts g) : (Gen.atan2 (v "z")).apply (realInterp F calls) g [.f 0, .f 0] = .nan := by
  have hz : binRV .div (.f 0) (.f 0) = .nan := by simp [binRV]
  simp only [Gen.atan2, ofFty_apply, List.map, bindParams]
  simp [hg.tan, hg.eighth, hg.half, hz]
  rfl
end

/-! The hypotheses can be met. -/

noncomputable def demoInv : Name → RV
  | ["PI"] => .f Real.pi
  | ["PI_BY_2"] => .f (Real.pi / 2)
  | ["PI_BY_8"] => .f (Real.pi / 8)
  | ["TAN_PI_BY_8"] => .f (Real.tan (Real.pi / 8))
  | _ => .junk

example : ∃ a, (Gen.atan2 (app "A" [v "z"])).apply (realInterp .f64 (demoCalls .f64 demoInv fun _ x => Real.arctan x)) demoInv [.f (-1), .f (-2)]
    = .f a ∧ |a - Complex.arg ((-2 : ℝ) + (-1 : ℝ) * Complex.I)| ≤ 0 :=
  C52_atan2 ⟨rfl, rfl, rfl, rfl⟩ (demo_approximates _ _ (fun _ x => Real.arctan x) "z" "A" (by decide) _) (-2) (-1) (Or.inl (by norm_num))

example : ∃ y, (Gen.asin (app "A" [v "x"])).apply (realInterp .f64 (demoCalls .f64 demoInv fun _ x => Real.arcsin x)) demoInv [.f (-1)]
    = .f y ∧ |y - Real.arcsin (-1)| ≤ 0 :=
  C52_asin rfl (demo_approximates _ _ (fun _ x => Real.arcsin x) "x" "A" (by decide) _) (-1) (by norm_num)

end Verif

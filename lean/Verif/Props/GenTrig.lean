import Verif.Lemmas.RealCode
import Mathlib.Analysis.SpecialFunctions.Trigonometric.Arctan
import Mathlib.Analysis.SpecialFunctions.Trigonometric.Bounds
import Mathlib.Tactic.Linarith

/-!
# C51: argument reduction in generated `sin`, `cos`, `tan`

The polynomial a generator inserts is a parameter: `Approximates I "x" p f s ε` says that wherever it is evaluated with `x` in `s`
its value is within `ε` of `f x`.  Constants are allowed an error as well.
-/

namespace Verif
open RExpr

/-- The expression `p` in the variable `var` is within `ε` of `f` on `s`. -/
def Approximates (I : RInterp RV) (var : String) (p : RExpr) (f : ℝ → ℝ) (s : Set ℝ) (ε : ℝ) : Prop :=
  ∃ P : ℝ → ℝ, (∀ (env : Name → RV) (x : ℝ), env [var] = .f x → x ∈ s → p.denote I env = .f (P x)) ∧ ∀ x ∈ s, |P x - f x| ≤ ε

/-- `calls` runs the generated function `fn` under its name. -/
def Linked (F : FloatFmt) (calls : String → List RV → RV) (g : Name → RV) (fn : RFn) : Prop :=
  ∀ args, calls fn.name args = fn.apply (realInterp F calls) g args

/-! ## `round` -/

theorem truncR_half (x : ℝ) : |x - (truncR (x + if x < 0 then -|1 / 2| else |1 / 2| : ℝ) : ℝ)| ≤ 1 / 2 := by
  unfold truncR
  have h2 : |(1 / 2 : ℝ)| = 1 / 2 := by norm_num
  rw [h2]
  by_cases hx : x < 0
  · simp only [hx, if_true]
    rw [if_neg (by linarith)]
    have h := Int.ceil_lt_add_one (x + -(1 / 2))
    have h' := Int.le_ceil (x + -(1 / 2))
    rw [abs_le]; constructor <;> linarith
  · simp only [hx, if_false]
    rw [if_pos (by linarith)]
    have h := Int.floor_le (x + 1 / 2)
    have h' := Int.lt_floor_add_one (x + 1 / 2)
    rw [abs_le]; constructor <;> linarith

theorem abs_truncR_le (x : ℝ) : |(truncR x : ℝ)| ≤ |x| := by
  unfold truncR
  split_ifs with h
  · have h0 : (0 : ℝ) ≤ ⌊x⌋ := by exact_mod_cast Int.floor_nonneg.2 h
    rw [abs_of_nonneg h0, abs_of_nonneg h]; exact Int.floor_le x
  · have h1 : x < 0 := not_le.1 h
    have h0 : (⌈x⌉ : ℝ) ≤ 0 := by exact_mod_cast Int.ceil_nonpos.2 h1.le
    rw [abs_of_nonpos h0, abs_of_neg h1]; linarith [Int.le_ceil x]

theorem clampZ_self {lo hi n : ℤ} (h : lo ≤ n) (h2 : n ≤ hi) : clampZ lo hi n = n := by
  simp [clampZ, not_lt.2 h, not_lt.2 h2]

/-- **C51** Generated `round` returns a nearest integer of every number that fits the integer type. -/
theorem C51_round (F : FloatFmt) (calls : String → List RV → RV) (g : Name → RV) (x : ℝ) (hx : |x| + 1 / 2 < 2 ^ (F.width - 1)) :
    ∃ n : ℤ, Gen.round.apply (realInterp F calls) g [.f x] = .f n ∧ |x - n| ≤ 1 / 2 := by
  refine ⟨truncR (x + if x < 0 then -|1 / 2| else |1 / 2|), ?_, truncR_half x⟩
  have hb : |(truncR (x + if x < 0 then -|1 / 2| else |1 / 2|) : ℝ)| < 2 ^ (F.width - 1) := by
    refine lt_of_le_of_lt (abs_truncR_le _) ?_
    refine lt_of_le_of_lt (abs_add_le _ _) ?_
    have : |(if x < 0 then -|1 / 2| else |1 / 2| : ℝ)| = 1 / 2 := by split_ifs <;> norm_num
    rw [this]; exact hx
  rw [abs_lt] at hb
  have h1 : -2 ^ (F.width - 1) < truncR (x + if x < 0 then -|1 / 2| else |1 / 2|) := by exact_mod_cast hb.1
  have h2 : truncR (x + if x < 0 then -|1 / 2| else |1 / 2|) < 2 ^ (F.width - 1) := by exact_mod_cast hb.2
  simp only [Gen.round, ofFty_apply, List.map, bindParams]
  simp [castRV]
  exact clampZ_self (by simpa using h1.le) (by simp at h2; omega)

/-! ## `sin` and `cos` -/

theorem sin_lipschitz (u v : ℝ) : |Real.sin u - Real.sin v| ≤ |u - v| := by
  rw [Real.sin_sub_sin]
  have h1 := Real.abs_sin_le_abs (x := (u - v) / 2)
  have h2 := Real.abs_cos_le_one ((u + v) / 2)
  rw [abs_mul, abs_mul, abs_two]
  rw [abs_div, abs_two] at h1
  nlinarith [abs_nonneg (Real.sin ((u - v) / 2)), abs_nonneg (Real.cos ((u + v) / 2)), abs_nonneg (u - v)]

theorem cos_lipschitz (u v : ℝ) : |Real.cos u - Real.cos v| ≤ |u - v| := by
  have h := sin_lipschitz (u + Real.pi / 2) (v + Real.pi / 2)
  rwa [Real.sin_add_pi_div_two, Real.sin_add_pi_div_two, add_sub_add_right_eq_sub] at h

section
variable {F : FloatFmt} {calls : String → List RV → RV} {g : Name → RV}

/-- What the reduction code hands to the polynomial. -/
theorem sinLike_apply (hl : Linked F calls g Gen.round) {c : ℝ} (hc : g ["RECIP_2PI"] = .f c) (name : String) {p : RExpr} {f : ℝ → ℝ} {ε : ℝ}
    (hp : Approximates (realInterp F calls) "x" p f (Set.Icc (-(1 / 2)) (1 / 2)) ε) (a : ℝ) (ha : |a * c| + 1 / 2 < 2 ^ (F.width - 1)) :
    ∃ (n : ℤ) (y : ℝ), (Gen.sinLike name p).apply (realInterp F calls) g [.f a] = .f y ∧ |y - f (a * c - n)| ≤ ε := by
  obtain ⟨n, hn, hd⟩ := C51_round F calls g (a * c) ha
  have hr : calls "round" [.f (a * c)] = .f n := by rw [← hn]; exact hl _
  simp only [Gen.sinLike, ofFty_apply, List.map, bindParams]
  have hx := abs_le.1 hd
  refine ⟨n, ?_⟩
  simp [hc, hr]
  obtain ⟨P, hP, he⟩ := hp
  have hm : a * c - n ∈ Set.Icc (-(1 / 2) : ℝ) (1 / 2) := by simpa using hx
  exact ⟨P (a * c - n), hP _ _ (by simp) hm, he _ hm⟩

/-- **C51** Generated `sin`: with a polynomial within `ε` of `sin 2πx` on `[-1/2, 1/2]` and a constant close to `1/2π`, the result is
within `ε + |2πc - 1| |a|` of `sin a`, for every argument whose turn count fits the integer type. -/
theorem C51_sin (hl : Linked F calls g Gen.round) {c : ℝ} (hc : g ["RECIP_2PI"] = .f c) {p : RExpr} {ε : ℝ}
    (hp : Approximates (realInterp F calls) "x" p (fun x => Real.sin (2 * Real.pi * x)) (Set.Icc (-(1 / 2)) (1 / 2)) ε)
    (a : ℝ) (ha : |a * c| + 1 / 2 < 2 ^ (F.width - 1)) :
    ∃ y, (Gen.sin p).apply (realInterp F calls) g [.f a] = .f y ∧ |y - Real.sin a| ≤ ε + |2 * Real.pi * c - 1| * |a| := by
  obtain ⟨n, y, hy, he⟩ := sinLike_apply hl hc "sin" hp a ha
  refine ⟨y, hy, ?_⟩
  have h1 : Real.sin (2 * Real.pi * (a * c - n)) = Real.sin (2 * Real.pi * (a * c)) := by
    rw [← Real.sin_sub_int_mul_two_pi (2 * Real.pi * (a * c)) n]; congr 1; ring
  have h2 := sin_lipschitz (2 * Real.pi * (a * c)) a
  rw [show 2 * Real.pi * (a * c) - a = (2 * Real.pi * c - 1) * a by ring, abs_mul] at h2
  simp only [h1] at he
  calc |y - Real.sin a| = |(y - Real.sin (2 * Real.pi * (a * c))) + (Real.sin (2 * Real.pi * (a * c)) - Real.sin a)| := by ring_nf
    _ ≤ _ := (abs_add_le _ _).trans (by linarith)

/-- **C51** The same for generated `cos`. -/
theorem C51_cos (hl : Linked F calls g Gen.round) {c : ℝ} (hc : g ["RECIP_2PI"] = .f c) {p : RExpr} {ε : ℝ}
    (hp : Approximates (realInterp F calls) "x" p (fun x => Real.cos (2 * Real.pi * x)) (Set.Icc (-(1 / 2)) (1 / 2)) ε)
    (a : ℝ) (ha : |a * c| + 1 / 2 < 2 ^ (F.width - 1)) :
    ∃ y, (Gen.cos p).apply (realInterp F calls) g [.f a] = .f y ∧ |y - Real.cos a| ≤ ε + |2 * Real.pi * c - 1| * |a| := by
  obtain ⟨n, y, hy, he⟩ := sinLike_apply hl hc "cos" hp a ha
  refine ⟨y, hy, ?_⟩
  have h1 : Real.cos (2 * Real.pi * (a * c - n)) = Real.cos (2 * Real.pi * (a * c)) := by
    rw [← Real.cos_sub_int_mul_two_pi (2 * Real.pi * (a * c)) n]; congr 1; ring
  have h2 := cos_lipschitz (2 * Real.pi * (a * c)) a
  rw [show 2 * Real.pi * (a * c) - a = (2 * Real.pi * c - 1) * a by ring, abs_mul] at h2
  simp only [h1] at he
  calc |y - Real.cos a| = |(y - Real.cos (2 * Real.pi * (a * c))) + (Real.cos (2 * Real.pi * (a * c)) - Real.cos a)| := by ring_nf
    _ ≤ _ := (abs_add_le _ _).trans (by linarith)

/-- **C51** With exact polynomial and constant the sine is exact. -/
theorem C51_sin_exact (hl : Linked F calls g Gen.round) (hc : g ["RECIP_2PI"] = .f (1 / (2 * Real.pi))) {p : RExpr}
    (hp : Approximates (realInterp F calls) "x" p (fun x => Real.sin (2 * Real.pi * x)) (Set.Icc (-(1 / 2)) (1 / 2)) 0)
    (a : ℝ) (ha : |a| / (2 * Real.pi) + 1 / 2 < 2 ^ (F.width - 1)) :
    (Gen.sin p).apply (realInterp F calls) g [.f a] = .f (Real.sin a) := by
  have hpi := Real.pi_pos
  obtain ⟨y, hy, he⟩ := C51_sin hl hc hp a (by
    rw [abs_mul, abs_of_pos (by positivity : 0 < 1 / (2 * Real.pi)), mul_one_div]; exact ha)
  rw [mul_one_div_cancel (by positivity), sub_self, abs_zero, zero_mul, add_zero] at he
  rw [hy, sub_eq_zero.1 (abs_nonpos_iff.1 he)]

/-- **C51** With exact polynomial and constant the cosine is exact. -/
theorem C51_cos_exact (hl : Linked F calls g Gen.round) (hc : g ["RECIP_2PI"] = .f (1 / (2 * Real.pi))) {p : RExpr}
    (hp : Approximates (realInterp F calls) "x" p (fun x => Real.cos (2 * Real.pi * x)) (Set.Icc (-(1 / 2)) (1 / 2)) 0)
    (a : ℝ) (ha : |a| / (2 * Real.pi) + 1 / 2 < 2 ^ (F.width - 1)) :
    (Gen.cos p).apply (realInterp F calls) g [.f a] = .f (Real.cos a) := by
  have hpi := Real.pi_pos
  obtain ⟨y, hy, he⟩ := C51_cos hl hc hp a (by
    rw [abs_mul, abs_of_pos (by positivity : 0 < 1 / (2 * Real.pi)), mul_one_div]; exact ha)
  rw [mul_one_div_cancel (by positivity), sub_self, abs_zero, zero_mul, add_zero] at he
  rw [hy, sub_eq_zero.1 (abs_nonpos_iff.1 he)]

/-- **C51** "Every real argument" is too much: once the turn count does not fit the integer type, the cast in `round` saturates and the
polynomial is evaluated outside its interval. -/
theorem C51_reduction_saturates (hl : Linked F calls g Gen.round) {c : ℝ} (hc : g ["RECIP_2PI"] = .f c) (a : ℝ)
    (ha : 2 ^ (F.width - 1) ≤ a * c) :
    ∃ x, (Gen.sin (v "x")).apply (realInterp F calls) g [.f a] = .f x ∧ 1 ≤ x := by
  have h0 : 0 ≤ a * c := le_trans (by positivity) ha
  have hr : calls "round" [.f (a * c)] = .f ((2 ^ (F.width - 1) - 1 : ℤ) : ℝ) := by
    rw [show calls "round" = calls Gen.round.name from rfl, hl]
    simp only [Gen.round, ofFty_apply, List.map, bindParams]
    simp [castRV, not_lt.2 h0]
    have h1 : (2 : ℤ) ^ (F.width - 1) ≤ truncR (a * c + 2⁻¹) := by
      rw [truncR, if_pos (by positivity), Int.le_floor]; push_cast; linarith
    have h2 : ¬ truncR (a * c + 2⁻¹) < -2 ^ (F.width - 1) := by
      have : (0 : ℤ) < 2 ^ (F.width - 1) := by positivity
      omega
    rw [clampZ, if_neg h2, if_pos (by omega)]
    push_cast; rfl
  refine ⟨a * c - ((2 ^ (F.width - 1) - 1 : ℤ) : ℝ), ?_, ?_⟩
  · simp only [Gen.sin, Gen.sinLike, ofFty_apply, List.map, bindParams]
    simp [hc, hr]
  · push_cast; linarith

/-! ## `tan` -/

theorem tan_apply_const (hl : Linked F calls g Gen.round) {c : ℝ} (hc : g ["RECIP_PI"] = .f c) {p : RExpr} {ε : ℝ} {s : Set ℝ}
    (hp : Approximates (realInterp F calls) "x" p (fun x => Real.tan (Real.pi * x) * (x * x - 1 / 4)) s ε)
    (a : ℝ) (ha : |a * c| + 1 / 2 < 2 ^ (F.width - 1))
    (hs : ∀ n : ℤ, |a * c - n| ≤ 1 / 2 → a * c - n ∈ s ∧ (a * c - n) * (a * c - n) ≠ 1 / 4) :
    ∃ (x y : ℝ), x ∈ s ∧ |x| ≤ 1 / 2 ∧ x * x ≠ 1 / 4 ∧ (Gen.tan p).apply (realInterp F calls) g [.f a] = .f (y / (x * x - 1 / 4)) ∧
      |y - Real.tan (Real.pi * (a * c)) * (x * x - 1 / 4)| ≤ ε := by
  obtain ⟨n, hn, hd'⟩ := C51_round F calls g (a * c) ha
  have hr : calls "round" [.f (a * c)] = .f n := by rw [← hn]; exact hl _
  have hs' := hs n hd'
  set x : ℝ := a * c - n with hx
  have hne : x * x - 1 / 4 ≠ 0 := sub_ne_zero.2 hs'.2
  have htan : Real.tan (Real.pi * x) = Real.tan (Real.pi * (a * c)) := by
    rw [← Real.tan_sub_int_mul_pi (Real.pi * (a * c)) n]; congr 1; rw [hx]; ring
  obtain ⟨P, hP, he⟩ := hp
  refine ⟨x, P x, hs'.1, hd', hs'.2, ?_, ?_⟩
  · simp only [Gen.tan, ofFty_apply, List.map, bindParams]
    simp [hc, hr, ← hx]
    rw [bin_div (by simpa using hne)]
    rw [hP _ x (by simp) hs'.1]
    simp [div_eq_mul_inv]
  · simpa only [htan] using he x hs'.1

theorem tan_apply (hl : Linked F calls g Gen.round) (hc : g ["RECIP_PI"] = .f (1 / Real.pi)) {p : RExpr} {ε : ℝ} {s : Set ℝ}
    (hp : Approximates (realInterp F calls) "x" p (fun x => Real.tan (Real.pi * x) * (x * x - 1 / 4)) s ε)
    (a : ℝ) (ha : |a| / Real.pi + 1 / 2 < 2 ^ (F.width - 1))
    (hs : ∀ n : ℤ, |a / Real.pi - n| ≤ 1 / 2 → a / Real.pi - n ∈ s ∧ (a / Real.pi - n) * (a / Real.pi - n) ≠ 1 / 4) :
    ∃ (x y : ℝ), x ∈ s ∧ |x| ≤ 1 / 2 ∧ x * x ≠ 1 / 4 ∧ (Gen.tan p).apply (realInterp F calls) g [.f a] = .f (y / (x * x - 1 / 4)) ∧
      |y - Real.tan a * (x * x - 1 / 4)| ≤ ε := by
  have hpi := Real.pi_pos
  have e : a * (1 / Real.pi) = a / Real.pi := mul_one_div _ _
  have := tan_apply_const hl hc hp a (by rwa [e, abs_div, abs_of_pos hpi]) (by rwa [e])
  rwa [e, mul_div_cancel₀ a hpi.ne'] at this

/-- **C51** Generated `tan` for any value `c` of the constant `RECIP_PI`: away from the poles by `d` half turns, with a polynomial within `ε` of
`tan πx (x² - 1/4)`, the result is within `2ε/d` of the tangent of `πca`. -/
theorem C51_tan_const (hl : Linked F calls g Gen.round) {c : ℝ} (hc : g ["RECIP_PI"] = .f c) {p : RExpr} {ε d : ℝ} (hd : 0 < d)
    (hp : Approximates (realInterp F calls) "x" p (fun x => Real.tan (Real.pi * x) * (x * x - 1 / 4)) (Set.Icc (-(1 / 2 - d)) (1 / 2 - d)) ε)
    (a : ℝ) (ha : |a * c| + 1 / 2 < 2 ^ (F.width - 1)) (hpole : ∀ k : ℤ, d ≤ |a * c - (k + 1 / 2)|) :
    ∃ y, (Gen.tan p).apply (realInterp F calls) g [.f a] = .f y ∧ |y - Real.tan (Real.pi * (a * c))| ≤ 2 * ε / d := by
  have key : ∀ n : ℤ, |a * c - n| ≤ 1 / 2 → a * c - n ∈ Set.Icc (-(1 / 2 - d)) (1 / 2 - d) := by
    intro n hn
    have h1 := hpole (n - 1)
    have h2 := hpole n
    have h3 := abs_le.1 hn
    rw [le_abs] at h1 h2
    push_cast at h1
    constructor
    · rcases h1 with h | h <;> linarith
    · rcases h2 with h | h <;> linarith
  have hq : ∀ x : ℝ, x ∈ Set.Icc (-(1 / 2 - d)) (1 / 2 - d) → d / 2 ≤ 1 / 4 - x * x := by
    rintro x ⟨h1, h2⟩; nlinarith
  obtain ⟨x, y, hx, -, hne, hy, he⟩ := tan_apply_const hl hc hp a ha
    (fun n hn => ⟨key n hn, fun h => by have := hq _ (key n hn); linarith⟩)
  refine ⟨_, hy, ?_⟩
  have hb := hq x hx
  have hne' : x * x - 1 / 4 ≠ 0 := sub_ne_zero.2 hne
  set t := Real.tan (Real.pi * (a * c))
  have h1 : y / (x * x - 1 / 4) - t = (y - t * (x * x - 1 / 4)) / (x * x - 1 / 4) := by
    rw [sub_div, mul_div_assoc, div_self hne', mul_one]
  rw [h1, abs_div, abs_of_nonpos (by linarith : x * x - 1 / 4 ≤ 0)]
  have hε : 0 ≤ ε := (abs_nonneg _).trans he
  rw [div_le_div_iff₀ (by linarith) hd]
  nlinarith

/-- **C51** With an exact constant the result is within `2ε/d` of `tan a`. -/
theorem C51_tan (hl : Linked F calls g Gen.round) (hc : g ["RECIP_PI"] = .f (1 / Real.pi)) {p : RExpr} {ε d : ℝ} (hd : 0 < d)
    (hp : Approximates (realInterp F calls) "x" p (fun x => Real.tan (Real.pi * x) * (x * x - 1 / 4)) (Set.Icc (-(1 / 2 - d)) (1 / 2 - d)) ε)
    (a : ℝ) (ha : |a| / Real.pi + 1 / 2 < 2 ^ (F.width - 1)) (hpole : ∀ k : ℤ, d ≤ |a / Real.pi - (k + 1 / 2)|) :
    ∃ y, (Gen.tan p).apply (realInterp F calls) g [.f a] = .f y ∧ |y - Real.tan a| ≤ 2 * ε / d := by
  have hpi := Real.pi_pos
  have e : a * (1 / Real.pi) = a / Real.pi := mul_one_div _ _
  have := C51_tan_const hl hc hd hp a (by rwa [e, abs_div, abs_of_pos hpi]) (by rwa [e])
  rwa [e, mul_div_cancel₀ a hpi.ne'] at this

/-- **C51** With an exact polynomial the tangent is exact at every argument where it exists. -/
theorem C51_tan_exact (hl : Linked F calls g Gen.round) (hc : g ["RECIP_PI"] = .f (1 / Real.pi)) {p : RExpr}
    (hp : Approximates (realInterp F calls) "x" p (fun x => Real.tan (Real.pi * x) * (x * x - 1 / 4)) (Set.Ioo (-(1 / 2)) (1 / 2)) 0)
    (a : ℝ) (ha : |a| / Real.pi + 1 / 2 < 2 ^ (F.width - 1)) (hcos : Real.cos a ≠ 0) :
    (Gen.tan p).apply (realInterp F calls) g [.f a] = .f (Real.tan a) := by
  have hpi := Real.pi_pos
  have hne : ∀ n : ℤ, (a / Real.pi - n) * (a / Real.pi - n) ≠ 1 / 4 := by
    intro n h
    have h2 : (a / Real.pi - n - 1 / 2) * (a / Real.pi - n + 1 / 2) = 0 := by linarith
    apply hcos
    rw [Real.cos_eq_zero_iff]
    rcases mul_eq_zero.1 h2 with h3 | h3
    · refine ⟨n, ?_⟩
      have : a / Real.pi = n + 1 / 2 := by linarith
      rw [div_eq_iff hpi.ne'] at this; rw [this]; ring
    · refine ⟨n - 1, ?_⟩
      have : a / Real.pi = n - 1 / 2 := by linarith
      rw [div_eq_iff hpi.ne'] at this; rw [this]; push_cast; ring
  obtain ⟨x, y, -, -, hne', hy, he⟩ := tan_apply hl hc hp a ha (fun n hn => by
    refine ⟨?_, hne n⟩
    have h1 := abs_le.1 hn
    have h2 := hne n
    constructor
    · refine lt_of_le_of_ne h1.1 (fun h => h2 ?_); rw [← h]; norm_num
    · refine lt_of_le_of_ne h1.2 (fun h => h2 ?_); rw [h]; norm_num)
  rw [hy, sub_eq_zero.1 (abs_nonpos_iff.1 he), mul_div_assoc, div_self (sub_ne_zero.2 hne'), mul_one]

/-- **C51** At a pole the code does not return a number. -/
theorem C51_tan_pole (hl : Linked F calls g Gen.round) {c a x : ℝ} {n : ℤ} (hc : g ["RECIP_PI"] = .f c) {p : RExpr}
    (hr : calls "round" [.f (a * c)] = .f n) (hx : a * c - n = x) (hpole : x * x = 1 / 4) (y : ℝ) :
    (Gen.tan p).apply (realInterp F calls) g [.f a] ≠ .f y := by
  simp only [Gen.tan, ofFty_apply, List.map, bindParams]
  simp [hc, hr, hx]
  simp only [binRV, hpole]
  simp
  intro h
  split at h <;> simp_all
end

/-! The hypotheses can be met: calls of exact functions serve as exact polynomials. -/

/-- Generated `round`, and exact functions under other names. -/
noncomputable def demoCalls (F : FloatFmt) (g : Name → RV) (exact : String → ℝ → ℝ) (name : String) (args : List RV) : RV :=
  if name = "round" then Gen.round.apply (realInterp F fun _ _ => .junk) g args
  else match args with
    | [.f x] => .f (exact name x)
    | _ => .junk

theorem demo_linked (F : FloatFmt) (g : Name → RV) (exact : String → ℝ → ℝ) : Linked F (demoCalls F g exact) g Gen.round := by
  intro args
  simp only [demoCalls, show Gen.round.name = "round" from rfl, if_true]
  rfl

theorem demo_approximates (F : FloatFmt) (g : Name → RV) (exact : String → ℝ → ℝ) (var name : String) (h : name ≠ "round") (s : Set ℝ) :
    Approximates (realInterp F (demoCalls F g exact)) var (app name [v var]) (exact name) s 0 := by
  exact ⟨exact name, fun env x hx _ => by simp [demoCalls, h, hx], by simp⟩

noncomputable def demoTrig : String → ℝ → ℝ
  | "S", x => Real.sin (2 * Real.pi * x)
  | "C", x => Real.cos (2 * Real.pi * x)
  | "T", x => Real.tan (Real.pi * x) * (x * x - 1 / 4)
  | _, _ => 0

noncomputable def demoConsts : Name → RV
  | ["RECIP_2PI"] => .f (1 / (2 * Real.pi))
  | ["RECIP_PI"] => .f (1 / Real.pi)
  | _ => .junk

example : (Gen.sin (app "S" [v "x"])).apply (realInterp .f32 (demoCalls .f32 demoConsts demoTrig)) demoConsts [.f 100] = .f (Real.sin 100) := by
  refine C51_sin_exact (demo_linked _ _ _) rfl (demo_approximates _ _ _ "x" "S" (by decide) _) 100 ?_
  have h : (100 : ℝ) / (2 * Real.pi) ≤ 100 := div_le_self (by norm_num) (by linarith [Real.two_le_pi])
  have hw : FloatFmt.f32.width - 1 = 31 := rfl
  rw [abs_of_pos (by norm_num), hw]; linarith

example : (Gen.tan (app "T" [v "x"])).apply (realInterp .f32 (demoCalls .f32 demoConsts demoTrig)) demoConsts [.f Real.pi] = .f 0 := by
  rw [C51_tan_exact (demo_linked _ _ _) rfl (demo_approximates _ _ _ "x" "T" (by decide) _) Real.pi ?_ (by simp), Real.tan_pi]
  have hw : FloatFmt.f32.width - 1 = 31 := rfl
  rw [abs_of_pos Real.pi_pos, div_self Real.pi_pos.ne', hw]; norm_num

end Verif

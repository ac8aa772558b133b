import Verif.Lemmas.Seeds
import Verif.Props.GenPower
import Mathlib.Tactic.IntervalCases

/-!
# C74: the starting estimates, and what the generated `sqrt`, `recip` and `cbrt` make of them

`C55` says what the Newton steps do to an estimate.  Here the estimates themselves: a linear map of the bit pattern, minus `0.08`.
-/

namespace Verif
open RExpr

section
variable {F : FloatFmt} {calls : String → List RV → RV} {g : Name → RV}

theorem seed_denote {e : RExpr} {env : Name → RV} {t y : ℝ} {n : ℤ} (he : e.denote (realInterp F calls) env = .f t)
    (hn : clampZ 0 (2 ^ F.width - 1) (truncR t) = n) (h0 : 0 ≤ n) (h1 : n < 2 ^ F.width) (hy : F.decode n.toNat = .f y) :
    (fromBits (as e "uty")).denote (realInterp F calls) env = .f y := by
  have : castRV F ["uty"] (.f t) = .i n := by rw [← hn]; rfl
  rw [denote_fromBits, denote_as, he, real_cast, this, real_fromBits F calls n h0 h1, hy]

theorem num_08 : ∀ env, (num "0.08").denote (realInterp F calls) env = .f (8 / 100) := fun env => by
  rw [denote_num F calls env (d := ⟨8, 2⟩) rfl]; norm_num [Dec.val]

theorem rpow_two_half (L : ℝ) : (2 : ℝ) ^ (1 / 2 * L) = √((2 : ℝ) ^ L) := by
  rw [Real.sqrt_eq_rpow, ← Real.rpow_mul (by norm_num)]; congr 1; ring

theorem pattern_range (hF : F.Ok) {x : ℝ} (hx : F.Repr x) (h0 : F.tiny ≤ x) (h1 : x < 2 ^ (F.bias + 1)) :
    (2 : ℝ) ^ F.mant ≤ F.encode x ∧ (F.encode x : ℝ) < (2 * F.bias + 1) * 2 ^ F.mant := by
  obtain ⟨q1, q2, -⟩ := FloatFmt.repr_pattern hF hx h0 h1
  exact ⟨by exact_mod_cast q1, by rw [← FloatFmt.maxPat_real hF]; exact_mod_cast q2⟩

theorem rpow_third {L : ℝ} : ((2 : ℝ) ^ (1 / 3 * L)) ^ 3 = 2 ^ L := by
  rw [← Real.rpow_natCast, ← Real.rpow_mul (by norm_num)]
  congr 1; push_cast; ring

theorem sqrt_band {x y L : ℝ} (k5 : (2 : ℝ) ^ L ≤ x) (k6 : x ≤ 10615 / 10000 * (2 : ℝ) ^ L) (k7 : 99995 / 100000 * (2 : ℝ) ^ (1 / 2 * L) ≤ y)
    (k8 : y ≤ 10616 / 10000 * (2 : ℝ) ^ (1 / 2 * L)) : 9705 / 10000 * √x ≤ y ∧ y ≤ 10617 / 10000 * √x := by
  rw [rpow_two_half] at k7 k8
  constructor
  · have hs : √x ≤ 103031 / 100000 * √((2 : ℝ) ^ L) := by
      rw [← Real.sqrt_sq (by norm_num : (0 : ℝ) ≤ 103031 / 100000), ← Real.sqrt_mul (by norm_num)]
      exact Real.sqrt_le_sqrt (k6.trans (mul_le_mul_of_nonneg_right (by norm_num) (by positivity)))
    linarith [Real.sqrt_nonneg ((2 : ℝ) ^ L)]
  · have hs := Real.sqrt_le_sqrt k5
    linarith [Real.sqrt_nonneg ((2 : ℝ) ^ L)]

theorem recip_band {x y L : ℝ} (h0 : 0 ≤ x) (k5 : (2 : ℝ) ^ L ≤ x) (k6 : x ≤ 10615 / 10000 * (2 : ℝ) ^ L) (k7 : 99995 / 100000 * (2 : ℝ) ^ (-1 * L) ≤ y)
    (k8 : y ≤ 10616 / 10000 * (2 : ℝ) ^ (-1 * L)) : 99995 / 100000 ≤ x * y ∧ x * y ≤ 11269 / 10000 := by
  have hone : (2 : ℝ) ^ L * (2 : ℝ) ^ (-1 * L) = 1 := by rw [← Real.rpow_add (by norm_num)]; simp
  constructor
  · calc (99995 / 100000 : ℝ) = 2 ^ L * (99995 / 100000 * (2 : ℝ) ^ (-1 * L)) := by rw [mul_left_comm, hone]; ring
      _ ≤ _ := mul_le_mul k5 k7 (by positivity) h0
  · calc x * y ≤ (10615 / 10000 * (2 : ℝ) ^ L) * (10616 / 10000 * (2 : ℝ) ^ (-1 * L)) := mul_le_mul k6 k8 (le_trans (by positivity) k7) (by positivity)
      _ = 10615 / 10000 * (10616 / 10000) * (2 ^ L * (2 : ℝ) ^ (-1 * L)) := by ring
      _ ≤ _ := by rw [hone]; norm_num

theorem cbrt_band {c y L : ℝ} (hc : 0 < c) (k5 : (2 : ℝ) ^ L ≤ c ^ 3) (k6 : c ^ 3 ≤ 10615 / 10000 * (2 : ℝ) ^ L) (k7 : 99995 / 100000 * (2 : ℝ) ^ (1 / 3 * L) ≤ y)
    (k8 : y ≤ 10616 / 10000 * (2 : ℝ) ^ (1 / 3 * L)) : |y - c| ≤ 616 / 10000 * c := by
  have hq : (0 : ℝ) < 2 ^ (1 / 3 * L) := by positivity
  generalize hqe : (2 : ℝ) ^ (1 / 3 * L) = q at *
  have hq3 : q ^ 3 = 2 ^ L := by rw [← hqe]; exact rpow_third
  rw [← hq3] at k5 k6
  have e1 : q ≤ c := le_of_pow_le_pow_left₀ (n := 3) (by norm_num) hc.le k5
  have e2 : c ≤ 10201 / 10000 * q := le_of_pow_le_pow_left₀ (n := 3) (by norm_num) (by positivity) (k6.trans (by
    rw [mul_pow]; exact mul_le_mul_of_nonneg_right (by norm_num) (by positivity)))
  rw [abs_le]
  constructor <;> linarith

/-! ## `sqrt` -/

/-- **C74** `sqrt_approx` is a number between `0.9705 √x` and `1.0617 √x`, less `0.08`. -/
theorem C74_sqrt_approx (hF : F.Wide) (hg : g ["EXP2_ONE"] = .f (F.bias * 2 ^ F.mant)) {x : ℝ} (hx : F.Repr x) (h0 : F.tiny ≤ x) (h1 : x < 2 ^ (F.bias + 1)) :
    ∃ y, Gen.sqrt_approx.apply (realInterp F calls) g [.f x] = .f (y - 8 / 100) ∧ 9705 / 10000 * √x ≤ y ∧ y ≤ 10617 / 10000 * √x := by
  obtain ⟨r1, r2⟩ := pattern_range hF.ok hx h0 h1
  have hm : (0 : ℝ) < 2 ^ F.mant := by positivity
  have hb : (29 : ℝ) ≤ F.bias := by exact_mod_cast hF.bias_ge.2
  have hbm : (29 : ℝ) * 2 ^ F.mant ≤ F.bias * 2 ^ F.mant := mul_le_mul_of_nonneg_right hb hm.le
  have hpos : 0 < x := FloatFmt.tiny_pos.trans_le h0
  obtain ⟨n, y, L, k1, k2, k3, k4, -, hL, k5, k6, k7, k8⟩ := FloatFmt.seed hF (p := 1 / 2) (t := (F.encode x : ℝ) * (1 / 2) + F.bias * 2 ^ F.mant * (1 / 2)) hx h0 h1
    (by linarith) (by linarith) (by rw [show (F.encode x : ℝ) * (1 / 2) + F.bias * 2 ^ F.mant * (1 / 2) - (1 / 2 * F.encode x + (1 - 1 / 2) * (F.bias * 2 ^ F.mant)) = 0 by ring, abs_zero]; positivity)
  refine ⟨y, ?_, ?_, ?_⟩
  · simp only [Gen.sqrt_approx, Gen.powerScale, ofFty_apply, List.map, bindParams, denoteBlock_letT]
    rw [seed_denote (t := (F.encode x : ℝ) * (1 / 2) + F.bias * 2 ^ F.mant * (1 / 2)) (by simp [abs_of_pos hpos, hg, num_half]) k1 k2 k3 k4]
    simp
  exacts [(sqrt_band k5 k6 k7 k8).1, (sqrt_band k5 k6 k7 k8).2]

/-- What one step leaves of the error of the estimate. -/
noncomputable def sqrtErr (s : ℝ) : ℝ := max (295 / 10000 * s + 8 / 100) (617 / 10000 * s - 8 / 100) ^ 2 / (2 * (9705 / 10000 * s - 8 / 100))

/-- **C74** One step makes `sqrt` too large, by at most `sqrtErr √x`. -/
theorem C74_sqrt_partial (hF : F.Wide) (hg : g ["EXP2_ONE"] = .f (F.bias * 2 ^ F.mant)) (hc : Linked F calls g Gen.sqrt_approx)
    {x : ℝ} (hx : F.Repr x) (h0 : 1 / 100 ≤ x) (h1 : x < 2 ^ (F.bias + 1)) :
    ∃ y, Gen.sqrt.apply (realInterp F calls) g [.f x] = .f y ∧ √x ≤ y ∧ y - √x ≤ sqrtErr √x := by
  have ht := FloatFmt.tiny_le hF
  norm_num at ht
  obtain ⟨y, h2, h3, h4⟩ := C74_sqrt_approx (calls := calls) hF hg hx (by linarith) h1
  have hs : 1 / 10 ≤ √x := Real.le_sqrt_of_sq_le (by linarith)
  have hr : 0 < y - 8 / 100 := by linarith
  obtain ⟨z, hz, he⟩ := C55_sqrt (F := F) (g := g) (by linarith : 0 ≤ x) hr.ne' ((hc [.f x]).trans h2)
  have hd : 0 ≤ (y - 8 / 100 - √x) ^ 2 / (2 * (y - 8 / 100)) := by positivity
  refine ⟨z, hz, by linarith, ?_⟩
  rw [he, sqrtErr]
  have hm := le_max_left (295 / 10000 * √x + 8 / 100) (617 / 10000 * √x - 8 / 100)
  have hm' := le_max_right (295 / 10000 * √x + 8 / 100) (617 / 10000 * √x - 8 / 100)
  refine div_le_div₀ (by positivity) ?_ (by linarith) (by linarith)
  rw [sq_le_sq, abs_of_nonneg (by linarith : 0 ≤ max (295 / 10000 * √x + 8 / 100) (617 / 10000 * √x - 8 / 100)), abs_le]
  constructor <;> linarith

/-- **C74** For `x ≥ 1/2` that is an error of 1.2 percent. -/
theorem C74_sqrt_large_partial (hF : F.Wide) (hg : g ["EXP2_ONE"] = .f (F.bias * 2 ^ F.mant)) (hc : Linked F calls g Gen.sqrt_approx)
    {x : ℝ} (hx : F.Repr x) (h0 : 1 / 2 ≤ x) (h1 : x < 2 ^ (F.bias + 1)) :
    ∃ y, Gen.sqrt.apply (realInterp F calls) g [.f x] = .f y ∧ √x ≤ y ∧ y - √x ≤ 12 / 1000 * √x := by
  obtain ⟨y, h2, h3, h4⟩ := C74_sqrt_partial hF hg hc hx (by linarith) h1
  refine ⟨y, h2, h3, h4.trans ?_⟩
  have hs : 707 / 1000 ≤ √x := Real.le_sqrt_of_sq_le (by norm_num; linarith)
  rw [sqrtErr, div_le_iff₀ (by linarith)]
  rcases max_choice (295 / 10000 * √x + 8 / 100) (617 / 10000 * √x - 8 / 100) with h | h
  · rw [h]; nlinarith
  · have := le_max_left (295 / 10000 * √x + 8 / 100) (617 / 10000 * √x - 8 / 100)
    rw [h] at this ⊢
    nlinarith

theorem encode_pow (hF : F.Ok) {k : ℤ} (h1 : 1 - (F.bias : ℤ) ≤ k) (h2 : k ≤ F.bias) : F.encode ((2 : ℝ) ^ k) = (k + F.bias).toNat * 2 ^ F.mant := by
  have := FloatFmt.encode_normal (F := F) (E := (k + F.bias).toNat) (f := 0) (by omega) (by positivity)
  rw [Int.toNat_of_nonneg (by omega)] at this
  simpa using this

theorem decode_pow (hF : F.Ok) {k : ℤ} (h1 : 1 - (F.bias : ℤ) ≤ k) (h2 : k ≤ F.bias) : F.decode ((k + F.bias).toNat * 2 ^ F.mant) = .f ((2 : ℝ) ^ k) := by
  have hb := FloatFmt.two_bias hF
  have := FloatFmt.decode_normal (F := F) (E := (k + F.bias).toNat) (f := 0) (by omega) (by omega) (by positivity)
  rw [Int.toNat_of_nonneg (by omega)] at this
  simpa using this

/-- At even powers of two the estimate is exact, before the `0.08` is taken off. -/
theorem sqrt_approx_pow (hF : F.Wide) (hg : g ["EXP2_ONE"] = .f (F.bias * 2 ^ F.mant)) {k : ℤ} (h1 : 1 - (F.bias : ℤ) ≤ 2 * k) (h2 : 2 * k ≤ F.bias) :
    Gen.sqrt_approx.apply (realInterp F calls) g [.f ((2 : ℝ) ^ (2 * k))] = .f ((2 : ℝ) ^ k - 8 / 100) := by
  have hb := hF.bias_ge.2
  have hpos : (0 : ℝ) < (2 : ℝ) ^ (2 * k) := by positivity
  have e1 := encode_pow hF.ok h1 h2
  have e2 := decode_pow hF.ok (k := k) (by omega) (by omega)
  have hw := FloatFmt.two_pow_width (F := F)
  have hmax := FloatFmt.maxPat_le (F := F)
  have htb := FloatFmt.two_bias hF.ok
  obtain ⟨c, hc⟩ : ∃ c : ℕ, (k + F.bias).toNat = c := ⟨_, rfl⟩
  have hck : (c : ℤ) = k + F.bias := by omega
  have hc2 : (2 * k + F.bias).toNat + F.bias = 2 * c := by omega
  rw [hc] at e2
  have hlt : c * 2 ^ F.mant < 2 ^ F.width := by
    have : c * 2 ^ F.mant ≤ F.maxPat := Nat.mul_le_mul_right _ (by omega)
    have : 0 < 2 ^ (F.mant + F.ebits) := by positivity
    omega
  simp only [Gen.sqrt_approx, Gen.powerScale, ofFty_apply, List.map, bindParams, denoteBlock_letT]
  have ht : (F.encode ((2 : ℝ) ^ (2 * k)) : ℝ) * (1 / 2) + F.bias * 2 ^ F.mant * (1 / 2) = ((c * 2 ^ F.mant : ℕ) : ℤ) := by
    rw [e1]
    have : (((2 * k + F.bias).toNat : ℕ) : ℝ) + F.bias = 2 * c := by exact_mod_cast hc2
    push_cast
    linear_combination (2 : ℝ) ^ F.mant / 2 * this
  rw [seed_denote (t := ((c * 2 ^ F.mant : ℕ) : ℤ)) (n := ((c * 2 ^ F.mant : ℕ) : ℤ)) (by rw [← ht]; simp [abs_of_pos hpos, hg]) (by
      rw [truncR_int]
      exact clampZ_self (by positivity) (by have : ((c * 2 ^ F.mant : ℕ) : ℤ) < ((2 ^ F.width : ℕ) : ℤ) := by exact_mod_cast hlt
                                            push_cast at this ⊢; omega)) (by positivity) (by exact_mod_cast hlt) (by rw [Int.toNat_natCast]; exact e2)]
  simp

/-- **C74** Not a square root: `sqrt(1)` is more than `1.003`, at every width. -/
theorem C74_sqrt_wrong (hF : F.Wide) (hg : g ["EXP2_ONE"] = .f (F.bias * 2 ^ F.mant)) (hc : Linked F calls g Gen.sqrt_approx) :
    ∃ y, Gen.sqrt.apply (realInterp F calls) g [.f 1] = .f y ∧ 1003 / 1000 < y := by
  have h := sqrt_approx_pow (calls := calls) hF hg (k := 0) (by have := hF.bias_ge.2; omega) (by omega)
  norm_num at h
  obtain ⟨z, hz, he⟩ := C55_sqrt (F := F) (g := g) (by norm_num : (0 : ℝ) ≤ 1) (by norm_num) ((hc [.f 1]).trans h)
  refine ⟨z, hz, ?_⟩
  norm_num at he
  linarith

/-- **C74** The square root of a small number is negative: `sqrt(2^-10) < -0.03`. -/
theorem C74_sqrt_negative (hF : F.Wide) (hg : g ["EXP2_ONE"] = .f (F.bias * 2 ^ F.mant)) (hc : Linked F calls g Gen.sqrt_approx) :
    ∃ y, Gen.sqrt.apply (realInterp F calls) g [.f (1 / 2 ^ 10)] = .f y ∧ y < -3 / 100 := by
  have h := sqrt_approx_pow (calls := calls) hF hg (k := -5) (by have := hF.bias_ge.2; omega) (by omega)
  norm_num at h
  obtain ⟨z, hz, he⟩ := C55_sqrt (F := F) (g := g) (by norm_num : (0 : ℝ) ≤ 1 / 1024) (by norm_num) ((hc [.f (1 / 1024)]).trans h)
  refine ⟨z, by norm_num; exact hz, ?_⟩
  have hs : √(1 / 1024 : ℝ) = 1 / 32 := by rw [show (1 / 1024 : ℝ) = (1 / 32) ^ 2 by norm_num]; exact Real.sqrt_sq (by norm_num)
  rw [hs] at he
  norm_num at he
  linarith

/-! ## `recip` -/

/-- **C74** `recip_approx` has the sign of its argument and is a number between `1/x` and `1.127/x`, less `0.08`, without its sign. -/
theorem C74_recip_approx (hF : F.Wide) (hg : g ["EXP2_ONE"] = .f (F.bias * 2 ^ F.mant)) {x : ℝ} (hx : F.Repr x) (h0 : F.tiny ≤ |x|) (h1 : |x| ≤ 2 ^ (F.bias - 1)) :
    ∃ y, Gen.recip_approx.apply (realInterp F calls) g [.f x] = .f (if x < 0 then -|y - 8 / 100| else |y - 8 / 100|) ∧
      99995 / 100000 ≤ |x| * y ∧ |x| * y ≤ 1127 / 1000 := by
  have hx' : F.Repr |x| := by rcases abs_choice x with h | h <;> rw [h]; exacts [hx, hx.neg]
  have hb := hF.bias_ge.2
  have h1' : |x| < 2 ^ (F.bias + 1) := h1.trans_lt (pow_lt_pow_right₀ (by norm_num) (by omega))
  obtain ⟨r1, r2⟩ := pattern_range hF.ok hx' h0 h1'
  have hm : (0 : ℝ) < 2 ^ F.mant := by positivity
  obtain ⟨q1, q2, q3⟩ := FloatFmt.repr_pattern hF.ok hx' h0 h1'
  have hN : (F.encode |x| : ℝ) ≤ (2 * F.bias - 1) * 2 ^ F.mant := by
    have h3 := (FloatFmt.pattern_pow q1 q2 q3).1.trans h1
    rw [← Real.rpow_natCast 2 (F.bias - 1), Real.rpow_le_rpow_left_iff (by norm_num), Nat.cast_sub (by omega), sub_le_iff_le_add, div_le_iff₀ hm] at h3
    push_cast at h3; linarith
  obtain ⟨n, y, L, k1, k2, k3, k4, -, hL, k5, k6, k7, k8⟩ := FloatFmt.seed hF (p := -1) (t := (F.encode |x| : ℝ) * -1 + F.bias * 2 ^ F.mant * 2) hx' h0 h1'
    (by linarith) (by linarith) (by rw [show (F.encode |x| : ℝ) * -1 + F.bias * 2 ^ F.mant * 2 - (-1 * F.encode |x| + (1 - -1) * (F.bias * 2 ^ F.mant)) = 0 by ring, abs_zero]; positivity)
  have hband := recip_band (abs_nonneg x) k5 k6 k7 k8
  refine ⟨y, ?_, ?_, ?_⟩
  · simp only [Gen.recip_approx, Gen.powerScale, ofFty_apply, List.map, bindParams, denoteBlock_letT]
    rw [seed_denote (t := (F.encode |x| : ℝ) * -1 + F.bias * 2 ^ F.mant * 2) (by simp [hg]) k1 k2 k3 k4]
    simp
  · exact hband.1
  · exact hband.2.trans (by norm_num)

/-- **C74** `recip` for arguments up to `12`: the relative error is the eighth power of `0.127` or of `0.08 |x|`. -/
theorem C74_recip_partial (hF : F.Wide) (hg : g ["EXP2_ONE"] = .f (F.bias * 2 ^ F.mant)) (hc : Linked F calls g Gen.recip_approx)
    {x : ℝ} (hx : F.Repr x) (h0 : F.tiny ≤ |x|) (h1 : |x| ≤ 12) :
    ∃ y, Gen.recip.apply (realInterp F calls) g [.f x] = .f y ∧ |1 - x * y| ≤ max (127 / 1000) (8 / 100 * |x| + 5 / 100000) ^ 8 := by
  have hb := hF.bias_ge.2
  have hpow : (2 : ℝ) ^ 28 ≤ 2 ^ (F.bias - 1) := pow_le_pow_right₀ (by norm_num) (by omega)
  have ht := FloatFmt.tiny_pos (F := F)
  norm_num at hpow
  obtain ⟨y, h2, h3, h4⟩ := C74_recip_approx (calls := calls) hF hg hx h0 (by linarith)
  obtain ⟨z, hz, he⟩ := C55_recip (F := F) (g := g) ((hc [.f x]).trans h2)
  refine ⟨z, hz, ?_⟩
  rw [he, abs_pow]
  have hy : 0 ≤ y - 8 / 100 := by
    by_contra hn
    have : |x| * y ≤ 12 * (8 / 100) := mul_le_mul h1 (by linarith) (by
      by_contra hy
      have : |x| * y ≤ 0 := mul_nonpos_of_nonneg_of_nonpos (abs_nonneg _) (by linarith)
      linarith) (by norm_num)
    linarith
  have hxr : x * (if x < 0 then -|y - 8 / 100| else |y - 8 / 100|) = |x| * y - 8 / 100 * |x| := by
    rw [abs_of_nonneg hy]
    split_ifs with hn
    · rw [abs_of_neg hn]; ring
    · rw [abs_of_nonneg (not_lt.1 hn)]; ring
  rw [hxr]
  refine pow_le_pow_left₀ (abs_nonneg _) ?_ 8
  rw [abs_le]
  have := le_max_left (127 / 1000) (8 / 100 * |x| + 5 / 100000)
  have := le_max_right (127 / 1000) (8 / 100 * |x| + 5 / 100000)
  constructor <;> linarith [abs_nonneg x]

/-- **C74** Beyond that `recip` fails: `recip(128)` is negative. -/
theorem C74_recip_wrong (hF : F.Wide) (hg : g ["EXP2_ONE"] = .f (F.bias * 2 ^ F.mant)) (hc : Linked F calls g Gen.recip_approx) :
    ∃ y, Gen.recip.apply (realInterp F calls) g [.f 128] = .f y ∧ y < -100000 := by
  have hb := hF.bias_ge.2
  have hr : F.Repr 128 := by
    have := FloatFmt.repr_zpow (F := F) (e := 7) (by omega); norm_num at this; exact this
  have hpow : (2 : ℝ) ^ 28 ≤ 2 ^ (F.bias - 1) := pow_le_pow_right₀ (by norm_num) (by omega)
  have ht := FloatFmt.tiny_le hF
  norm_num at hpow ht
  obtain ⟨y, h2, h3, h4⟩ := C74_recip_approx (calls := calls) hF hg hr (by norm_num; linarith) (by norm_num; linarith)
  obtain ⟨z, hz, he⟩ := C55_recip (F := F) (g := g) ((hc [.f 128]).trans h2)
  refine ⟨z, hz, ?_⟩
  norm_num at h3 h4 he
  rw [abs_of_neg (by linarith)] at he
  have hk : (8 : ℝ) ≤ -(1 - 128 * -(y - 2 / 25)) := by linarith
  have := pow_le_pow_left₀ (by norm_num) hk 8
  rw [Even.neg_pow (by decide)] at this
  norm_num at this he
  linarith

/-! ## `cbrt` -/

/-- The estimate of `cbrt` for the cube root `c` of `|x|`, from constants near `1/3` and `2/3`. -/
theorem cbrt_seed (hF : F.Wide) (hg : g ["EXP2_ONE"] = .f (F.bias * 2 ^ F.mant)) {a b : ℝ} (ha : g ["ONE_THIRD"] = .f a) (hb : g ["TWO_THIRDS"] = .f b)
    (hab : |a - 1 / 3| * (2 * F.bias + 1) + |b - 2 / 3| * F.bias ≤ 1 / 2 ^ 15) {x c : ℝ} (hx : F.Repr x) (h0 : F.tiny ≤ |x|) (h1 : |x| < 2 ^ (F.bias + 1))
    (hc : 0 < c) (hxc : |x| = c ^ 3) :
    ∃ y, ((fromBits (as (.paren (.method (.paren (as (.method (.method (v "x") "abs" []) "to_bits" []) "fty")) "mul_add"
      [v "ONE_THIRD", v "EXP2_ONE" * v "TWO_THIRDS"])) "uty")).denote (realInterp F calls) (envSet g "x" (.f x))) = .f y ∧ |y - c| ≤ 616 / 10000 * c := by
  have hx' : F.Repr |x| := by rcases abs_choice x with h | h <;> rw [h]; exacts [hx, hx.neg]
  obtain ⟨r1, r2⟩ := pattern_range hF.ok hx' h0 h1
  have hm : (0 : ℝ) < 2 ^ F.mant := by positivity
  have hbg : (29 : ℝ) ≤ F.bias := by exact_mod_cast hF.bias_ge.2
  have hbm : (29 : ℝ) * 2 ^ F.mant ≤ F.bias * 2 ^ F.mant := mul_le_mul_of_nonneg_right hbg hm.le
  have hd : |(F.encode |x| : ℝ) * a + F.bias * 2 ^ F.mant * b - (1 / 3 * F.encode |x| + (1 - 1 / 3) * (F.bias * 2 ^ F.mant))| ≤ 63 / 2 ^ 20 * 2 ^ F.mant := by
    rw [show (F.encode |x| : ℝ) * a + F.bias * 2 ^ F.mant * b - (1 / 3 * F.encode |x| + (1 - 1 / 3) * (F.bias * 2 ^ F.mant)) =
      (a - 1 / 3) * F.encode |x| + (b - 2 / 3) * (F.bias * 2 ^ F.mant) by ring]
    refine (abs_add_le _ _).trans ?_
    rw [abs_mul, abs_mul, abs_of_nonneg (Nat.cast_nonneg (α := ℝ) (F.encode |x|)), abs_of_nonneg (by positivity : (0 : ℝ) ≤ F.bias * 2 ^ F.mant)]
    calc |a - 1 / 3| * F.encode |x| + |b - 2 / 3| * (F.bias * 2 ^ F.mant)
        ≤ |a - 1 / 3| * ((2 * F.bias + 1) * 2 ^ F.mant) + |b - 2 / 3| * (F.bias * 2 ^ F.mant) := by gcongr
      _ = (|a - 1 / 3| * (2 * F.bias + 1) + |b - 2 / 3| * F.bias) * 2 ^ F.mant := by ring
      _ ≤ 63 / 2 ^ 20 * 2 ^ F.mant := mul_le_mul_of_nonneg_right (hab.trans (by norm_num)) hm.le
  have hd' := abs_le.1 hd
  have h15 : 63 / 2 ^ 20 * (2 : ℝ) ^ F.mant ≤ 2 ^ F.mant := by linarith
  obtain ⟨n, y, L, k1, k2, k3, k4, -, hL, k5, k6, k7, k8⟩ := FloatFmt.seed hF (p := 1 / 3) (t := (F.encode |x| : ℝ) * a + F.bias * 2 ^ F.mant * b) hx' h0 h1
    (by linarith) (by linarith) hd
  refine ⟨y, ?_, ?_⟩
  · exact seed_denote (t := (F.encode |x| : ℝ) * a + F.bias * 2 ^ F.mant * b) (by simp [hg, ha, hb]) k1 k2 k3 k4
  · rw [hxc] at k5 k6
    exact cbrt_band hc k5 k6 k7 k8

/-- The values that `gen_ONE_THIRD` and `gen_TWO_THIRDS` give the two constants. -/
def ThirdConsts (b32 : Bool) (calls : String → List RV → RV) (g : Name → RV) : Prop :=
  g ["ONE_THIRD"] = (Gen.ONE_THIRD b32).constExpr.denote (realInterp (fmtOf b32) calls) g ∧
  g ["TWO_THIRDS"] = (Gen.TWO_THIRDS b32).constExpr.denote (realInterp (fmtOf b32) calls) g

theorem ThirdConsts.get {b32 : Bool} (h : ThirdConsts b32 calls g) : ∃ a b, g ["ONE_THIRD"] = .f a ∧ g ["TWO_THIRDS"] = .f b ∧
    |a - 1 / 3| * (2 * (fmtOf b32).bias + 1) + |b - 2 / 3| * (fmtOf b32).bias ≤ 1 / 2 ^ 15 := by
  have hb32 : FloatFmt.f32.bias = 127 := by decide
  have hb64 : FloatFmt.f64.bias = 1023 := by decide
  obtain ⟨h1, h2⟩ := h
  cases b32 <;> simp only [fmtOf, if_true, if_false, Bool.false_eq_true, RItem.constExpr, Gen.ONE_THIRD, Gen.TWO_THIRDS, Gen.constItem] at h1 h2 ⊢
  · refine ⟨_, _, h1.trans (C68_flit (d := ⟨333333333333333333, 18⟩) rfl), h2.trans (C68_flit (d := ⟨666666666666666667, 18⟩) rfl), ?_⟩
    rw [hb64]; norm_num [Dec.val, abs_of_pos, abs_of_neg]
  · refine ⟨_, _, h1.trans (C68_flit (d := ⟨33333333, 8⟩) rfl), h2.trans (C68_flit (d := ⟨66666667, 8⟩) rfl), ?_⟩
    rw [hb32]; norm_num [Dec.val, abs_of_pos, abs_of_neg]

/-- **C74** `cbrt` of every normal number, of either sign, has a relative error of at most `2/10^17` (arithmetic exact). -/
theorem C74_cbrt {b32 : Bool} (hg : g ["EXP2_ONE"] = .f ((fmtOf b32).bias * 2 ^ (fmtOf b32).mant)) (h3 : ThirdConsts b32 calls g) {x c : ℝ} (hx : (fmtOf b32).Repr x)
    (h0 : (fmtOf b32).tiny ≤ |x|) (h1 : |x| < 2 ^ ((fmtOf b32).bias + 1)) (hc : 0 < c) (hxc : |x| = c ^ 3) :
    ∃ y, Gen.cbrt.apply (realInterp (fmtOf b32) calls) g [.f x] = .f y ∧ |y - (if x < 0 then -c else c)| ≤ 2 / 10 ^ 17 * c := by
  obtain ⟨a, b, ha, hb, hab⟩ := h3.get
  obtain ⟨r, hr, he⟩ := cbrt_seed (calls := calls) (FloatFmt.wide_fmtOf b32) hg ha hb hab hx h0 h1 hc hxc
  obtain ⟨y, hy, hz⟩ := C55_cbrt hc hxc hr he (by norm_num)
  exact ⟨y, hy, hz.trans (mul_le_mul_of_nonneg_right (by norm_num) hc.le)⟩

/-- The estimate `cbrt_approx`, which the generated `cbrt` does not use: between `0.98` and `1.0616` times the cube root, less `0.08`. -/
theorem C74_cbrt_approx (hF : F.Wide) (hg : g ["EXP2_ONE"] = .f (F.bias * 2 ^ F.mant)) {x c : ℝ} (hx : F.Repr x) (h0 : F.tiny ≤ |x|) (h1 : |x| < 2 ^ (F.bias + 1))
    (hc : 0 < c) (hxc : |x| = c ^ 3) :
    ∃ y, Gen.cbrt_approx.apply (realInterp F calls) g [.f x] = .f (if x < 0 then -|y - 8 / 100| else |y - 8 / 100|) ∧ |y - c| ≤ 616 / 10000 * c := by
  have hx' : F.Repr |x| := by rcases abs_choice x with h | h <;> rw [h]; exacts [hx, hx.neg]
  obtain ⟨r1, r2⟩ := pattern_range hF.ok hx' h0 h1
  have hm : (0 : ℝ) < 2 ^ F.mant := by positivity
  have hbg : (29 : ℝ) ≤ F.bias := by exact_mod_cast hF.bias_ge.2
  have hbm : (29 : ℝ) * 2 ^ F.mant ≤ F.bias * 2 ^ F.mant := mul_le_mul_of_nonneg_right hbg hm.le
  have he1 : ∀ env, ((num "1.0" / num "3.0" : RExpr)).denote (realInterp F calls) env = .f (1 / 3) := fun env => by
    rw [denote_div]; simp; rw [bin_div (by norm_num)]; norm_num
  have he2 : ∀ env : Name → RV, env ["EXP2_ONE"] = .f (F.bias * 2 ^ F.mant) →
      ((v "EXP2_ONE" * num "2.0" / num "3.0" : RExpr)).denote (realInterp F calls) env = .f (F.bias * 2 ^ F.mant * 2 / 3) := fun env h => by
    rw [denote_div]; simp [h]; rw [bin_div (by norm_num)]
  obtain ⟨n, y, L, k1, k2, k3, k4, -, hL, k5, k6, k7, k8⟩ := FloatFmt.seed hF (p := 1 / 3) (t := (F.encode |x| : ℝ) * (1 / 3) + F.bias * 2 ^ F.mant * 2 / 3) hx' h0 h1
    (by linarith) (by linarith) (by rw [show (F.encode |x| : ℝ) * (1 / 3) + F.bias * 2 ^ F.mant * 2 / 3 - (1 / 3 * F.encode |x| + (1 - 1 / 3) * (F.bias * 2 ^ F.mant)) = 0 by ring, abs_zero]; positivity)
  refine ⟨y, ?_, ?_⟩
  · simp only [Gen.cbrt_approx, ofFty_apply, List.map, bindParams, denoteBlock_letT]
    rw [seed_denote (t := (F.encode |x| : ℝ) * (1 / 3) + F.bias * 2 ^ F.mant * 2 / 3) (by simp [he1, he2, hg]) k1 k2 k3 k4]
    simp
  · rw [hxc] at k5 k6
    exact cbrt_band hc k5 k6 k7 k8

end

/-! ## The hypotheses can be met -/

/-- The constants of the format, with the two thirds as they are written. -/
noncomputable def seedEnv (b32 : Bool) : Name → RV
  | ["ONE_THIRD"] => (Gen.ONE_THIRD b32).constExpr.denote (realInterp (fmtOf b32) fun _ _ => .junk) fun _ => .junk
  | ["TWO_THIRDS"] => (Gen.TWO_THIRDS b32).constExpr.denote (realInterp (fmtOf b32) fun _ _ => .junk) fun _ => .junk
  | n => demoBits (fmtOf b32) n

/-- A library in which the two estimates are the generated ones. -/
noncomputable def seedCalls (b32 : Bool) (name : String) (args : List RV) : RV :=
  if name = "sqrt_approx" then Gen.sqrt_approx.apply (realInterp (fmtOf b32) fun _ _ => .junk) (seedEnv b32) args
  else Gen.recip_approx.apply (realInterp (fmtOf b32) fun _ _ => .junk) (seedEnv b32) args

theorem fromBits_calls (F : FloatFmt) (c₁ c₂ : String → List RV → RV) (a : RV) :
    (realInterp F c₁).call ["fty", "from_bits"] [a] = (realInterp F c₂).call ["fty", "from_bits"] [a] := by
  cases a <;> rfl

theorem powerScale_calls (F : FloatFmt) (c : String → List RV → RV) (g : Name → RV) (args : List RV) :
    Gen.sqrt_approx.apply (realInterp F fun _ _ => .junk) g args = Gen.sqrt_approx.apply (realInterp F c) g args ∧
    Gen.recip_approx.apply (realInterp F fun _ _ => .junk) g args = Gen.recip_approx.apply (realInterp F c) g args := by
  constructor <;> simp only [Gen.sqrt_approx, Gen.recip_approx, Gen.powerScale, ofFty_apply, denoteBlock_letT, denote_fromBits, fromBits_calls F (fun _ _ => .junk) c] <;> rfl

theorem seedCalls_sqrt (b32 : Bool) : Linked (fmtOf b32) (seedCalls b32) (seedEnv b32) Gen.sqrt_approx := by
  intro args
  simp only [seedCalls, show Gen.sqrt_approx.name = "sqrt_approx" from rfl, if_true]
  exact (powerScale_calls _ _ _ _).1

theorem seedCalls_recip (b32 : Bool) : Linked (fmtOf b32) (seedCalls b32) (seedEnv b32) Gen.recip_approx := by
  intro args
  simp only [seedCalls, show Gen.recip_approx.name = "recip_approx" from rfl, if_neg (show "recip_approx" ≠ "sqrt_approx" by decide)]
  exact (powerScale_calls _ _ _ _).2

theorem seedEnv_thirds (b32 : Bool) : ThirdConsts b32 (seedCalls b32) (seedEnv b32) := by
  cases b32 <;> exact ⟨rfl, rfl⟩

/-- `sqrt(2)`, in either width, lies between `√2` and `√2 + 0.02`. -/
example (b32 : Bool) : ∃ y, Gen.sqrt.apply (realInterp (fmtOf b32) (seedCalls b32)) (seedEnv b32) [.f 2] = .f y ∧ √2 ≤ y ∧ y ≤ √2 + 2 / 100 := by
  have hF := FloatFmt.wide_fmtOf b32
  have hb := hF.bias_ge.2
  have hr : (fmtOf b32).Repr 2 := by have := FloatFmt.repr_eighths hF 16 (by norm_num); norm_num at this; exact this
  have hpow : (2 : ℝ) ^ 2 ≤ 2 ^ ((fmtOf b32).bias + 1) := pow_le_pow_right₀ (by norm_num) (by omega)
  obtain ⟨y, h1, h2, h3⟩ := C74_sqrt_large_partial (g := seedEnv b32) hF rfl (seedCalls_sqrt b32) hr (by norm_num) (by norm_num at hpow; linarith)
  have hs : √2 ≤ 3 / 2 := Real.sqrt_le_iff.2 (by norm_num)
  exact ⟨y, h1, h2, by linarith⟩

/-- Its estimate. -/
example : ∃ y, Gen.sqrt_approx.apply (realInterp .f32 fun _ _ => .junk) (seedEnv true) [.f 2] = .f (y - 8 / 100) ∧ 9705 / 10000 * √2 ≤ y ∧ y ≤ 10617 / 10000 * √2 := by
  have hF := FloatFmt.wide_fmtOf true
  have hb := hF.bias_ge.2
  have ht := FloatFmt.tiny_le hF
  have hr : (fmtOf true).Repr 2 := by have := FloatFmt.repr_eighths hF 16 (by norm_num); norm_num at this; exact this
  have hpow : (2 : ℝ) ^ 2 ≤ 2 ^ ((fmtOf true).bias + 1) := pow_le_pow_right₀ (by norm_num) (by omega)
  exact C74_sqrt_approx (g := seedEnv true) hF rfl hr (by norm_num at ht; linarith) (by norm_num at hpow; linarith)

example (b32 : Bool) : ∃ y, Gen.sqrt.apply (realInterp (fmtOf b32) (seedCalls b32)) (seedEnv b32) [.f 1] = .f y ∧ 1003 / 1000 < y :=
  C74_sqrt_wrong (FloatFmt.wide_fmtOf b32) rfl (seedCalls_sqrt b32)

example (b32 : Bool) : ∃ y, Gen.sqrt.apply (realInterp (fmtOf b32) (seedCalls b32)) (seedEnv b32) [.f (1 / 2 ^ 10)] = .f y ∧ y < -3 / 100 :=
  C74_sqrt_negative (FloatFmt.wide_fmtOf b32) rfl (seedCalls_sqrt b32)

/-- `recip(-3/2)` is `-2/3` to seven digits. -/
example (b32 : Bool) : ∃ y, Gen.recip.apply (realInterp (fmtOf b32) (seedCalls b32)) (seedEnv b32) [.f (-3 / 2)] = .f y ∧ |1 - -3 / 2 * y| ≤ 7 / 10 ^ 8 := by
  have hF := FloatFmt.wide_fmtOf b32
  have ht := FloatFmt.tiny_le hF
  have hr : (fmtOf b32).Repr (-3 / 2) := by have := FloatFmt.repr_eighths hF (-12) (by norm_num); norm_num at this; norm_num; exact this
  have ha : |(-3 / 2 : ℝ)| = 3 / 2 := by rw [abs_of_neg (by norm_num)]; norm_num
  obtain ⟨y, h1, h2⟩ := C74_recip_partial (g := seedEnv b32) hF rfl (seedCalls_recip b32) hr (by rw [ha]; norm_num at ht; linarith) (by rw [ha]; norm_num)
  rw [ha] at h2
  exact ⟨y, h1, h2.trans (by norm_num)⟩

example (b32 : Bool) : ∃ y, Gen.recip.apply (realInterp (fmtOf b32) (seedCalls b32)) (seedEnv b32) [.f 128] = .f y ∧ y < -100000 :=
  C74_recip_wrong (FloatFmt.wide_fmtOf b32) rfl (seedCalls_recip b32)

/-- `cbrt(-27)` is near `-3`. -/
example (b32 : Bool) : ∃ y, Gen.cbrt.apply (realInterp (fmtOf b32) (seedCalls b32)) (seedEnv b32) [.f (-27)] = .f y ∧ |y - -3| ≤ 6 / 10 ^ 17 := by
  have hF := FloatFmt.wide_fmtOf b32
  have hb := hF.bias_ge.2
  have ht := FloatFmt.tiny_le hF
  have hr : (fmtOf b32).Repr (-27) := by have := FloatFmt.repr_eighths hF (-216) (by norm_num); norm_num at this; exact this
  have hpow : (2 : ℝ) ^ 5 ≤ 2 ^ ((fmtOf b32).bias + 1) := pow_le_pow_right₀ (by norm_num) (by omega)
  have ha : |(-27 : ℝ)| = 27 := by norm_num
  obtain ⟨y, h1, h2⟩ := C74_cbrt (c := 3) (g := seedEnv b32) rfl (seedEnv_thirds b32) hr (by rw [ha]; norm_num at ht; linarith) (by rw [ha]; norm_num at hpow; linarith)
    (by norm_num) (by norm_num)
  rw [if_pos (by norm_num)] at h2
  exact ⟨y, h1, h2.trans (by norm_num)⟩

end Verif

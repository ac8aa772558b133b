import Verif.Props.ApproxExp
import Verif.Props.TestLog

/-!
# C99 Enclosures of the exponentials of the generated 32-bit library

The reduction of the argument is exact, so only the polynomial, its scaling and, in `exp_m1`, one last sum matter.
-/

namespace Verif
open RExpr Dec

/-! ## The polynomials -/

def expTail : List (ℚ × ℚ) :=
  [(6931471805537 / 10 ^ 13, 6931471805538 / 10 ^ 13), (2402265150485 / 10 ^ 13, 2402265150497 / 10 ^ 13), (555041092864 / 10 ^ 13, 555041092887 / 10 ^ 13),
  (96179945253 / 10 ^ 13, 96179945295 / 10 ^ 13), (13333454508 / 10 ^ 13, 13333454589 / 10 ^ 13), (1547801846 / 10 ^ 13, 1547802005 / 10 ^ 13), (153100654 / 10 ^ 13, 153100969 / 10 ^ 13)]
/-- Bounds of the coefficients of `exp2` and `exp_m1` at 32 bits. -/
def exp2Box : List (ℚ × ℚ) := (9999999999190 / 10 ^ 13, 9999999999191 / 10 ^ 13) :: expTail
def expm1Box : List (ℚ × ℚ) := (-810 / 10 ^ 13, -809 / 10 ^ 13) :: expTail

theorem exp2Cert_ok : (exp2Cert 7 20 0 (9 / 10 ^ 20) 3 4 (2 / 10 ^ 10) (5 / 2)).ok := by decide +kernel
theorem expm1Cert_ok : (exp2Cert 7 20 1 (9 / 10 ^ 20) 4 5 (2 / 10 ^ 10) (5 / 2)).ok := by decide +kernel
theorem exp2Box_ok : (exp2Cert 7 20 0 (9 / 10 ^ 20) 3 4 (2 / 10 ^ 10) (5 / 2)).boxOk .neither (1, 1) (0, 0) exp2Box := by decide +kernel
theorem expm1Box_ok : (exp2Cert 7 20 1 (9 / 10 ^ 20) 4 5 (2 / 10 ^ 10) (5 / 2)).boxOk .neither (1, 1) (-1, -1) expm1Box := by decide +kernel
theorem exp2Box_small : ∀ r ∈ exp2Box, |r.1| ≤ 10 ^ 30 ∧ |r.2| ≤ 10 ^ 30 := by decide +kernel
theorem expm1Box_small : ∀ r ∈ expm1Box, |r.1| ≤ 10 ^ 30 ∧ |r.2| ≤ 10 ^ 30 := by decide +kernel

def exp2Lits : List Enc := litBox ulp32 (1 / 10 ^ 12) exp2Box
def expm1Lits : List Enc := litBox ulp32 (1 / 10 ^ 12) expm1Box

theorem exp2_code_enc {ext : BdExt} {fx : FloatExt} {v : ℝ} (hf : 5 ≤ ext.fuel) (h : RoundedLits fx true v) (hv : v ≤ 1 / 10 ^ 12) :
    ∃ e, polynomialCode ext fx true .exp2 ⟨-5, 1⟩ ⟨5, 1⟩ = .ok e ∧
      EncCode .f32 "x" e.toR (fun t => (2 : ℝ) ^ t) (1 / 2) (2 / 10 ^ 10) (polyEnc ulp32 .neither 7 exp2Lits) := by
  obtain ⟨e, h1, h2⟩ := (exp2_fits ext hf 7 20 (9 / 10 ^ 20) 3 4 (2 / 10 ^ 10) (5 / 2) exp2Cert_ok).encCode exp2Cert_ok exp2Box_ok rfl
    exp2Box_small (by norm_num) (by norm_num) h eps_ulp32 (v' := 1 / 10 ^ 12) (by push_cast; exact hv) rfl rfl
  refine ⟨e, h1, ?_⟩
  have e1 : (((exp2Cert 7 20 0 (9 / 10 ^ 20) 3 4 (2 / 10 ^ 10) (5 / 2)).hi : ℚ) : ℝ) = 1 / 2 := by simp [exp2Cert]
  have e2 : (((exp2Cert 7 20 0 (9 / 10 ^ 20) 3 4 (2 / 10 ^ 10) (5 / 2)).ε : ℚ) : ℝ) = 2 / 10 ^ 10 := by simp [exp2Cert]
  rw [e1, e2] at h2
  exact h2

theorem expm1_code_enc {ext : BdExt} {fx : FloatExt} {v : ℝ} (hf : 5 ≤ ext.fuel) (h : RoundedLits fx true v) (hv : v ≤ 1 / 10 ^ 12) :
    ∃ e, polynomialCode ext fx true .exp_m1 ⟨-5, 1⟩ ⟨5, 1⟩ = .ok e ∧
      EncCode .f32 "x" e.toR (fun t => (2 : ℝ) ^ t - 1) (1 / 2) (2 / 10 ^ 10) (polyEnc ulp32 .neither 7 expm1Lits) := by
  obtain ⟨e, h1, h2⟩ := (exp_m1_fits ext hf 7 20 (9 / 10 ^ 20) 4 5 (2 / 10 ^ 10) (5 / 2) expm1Cert_ok).encCode expm1Cert_ok expm1Box_ok rfl
    expm1Box_small (by norm_num) (by norm_num) h eps_ulp32 (v' := 1 / 10 ^ 12) (by push_cast; exact hv) rfl rfl
  refine ⟨e, h1, ?_⟩
  have e1 : (((exp2Cert 7 20 1 (9 / 10 ^ 20) 4 5 (2 / 10 ^ 10) (5 / 2)).hi : ℚ) : ℝ) = 1 / 2 := by simp [exp2Cert]
  have e2 : (((exp2Cert 7 20 1 (9 / 10 ^ 20) 4 5 (2 / 10 ^ 10) (5 / 2)).ε : ℚ) : ℝ) = 2 / 10 ^ 10 := by simp [exp2Cert]
  rw [e1, e2] at h2
  exact h2

/-! ## Exact steps -/

namespace FloatFmt
variable {F : FloatFmt}

/-- Subtracting a nearby whole number is exact. -/
theorem Repr.sub_int {u : ℝ} (h : F.Repr u) {r : ℤ} (h1 : |u - r| ≤ |u|) (h2 : |u - r| ≤ 1 / 2) : F.Repr (u - r) := by
  obtain ⟨m, e, hu, hm, he⟩ := h
  rcases le_or_gt e 0 with h0 | h0
  · obtain ⟨k, rfl⟩ : ∃ k : ℕ, e = -k := ⟨e.natAbs, by omega⟩
    have hk : (0 : ℝ) < 2 ^ k := by positivity
    have hu' : u = m / 2 ^ k := by rw [hu, zpow_neg, zpow_natCast]; rfl
    refine ⟨m - r * 2 ^ k, -k, ?_, ?_, he⟩
    · rw [hu', zpow_neg, zpow_natCast]; push_cast; field_simp
    · refine le_trans ?_ hm
      rw [← Int.cast_le (R := ℝ)]
      push_cast
      have e1 : (m : ℝ) - r * 2 ^ k = (u - r) * 2 ^ k := by rw [hu']; field_simp
      have e2 : (m : ℝ) = u * 2 ^ k := by rw [hu']; field_simp
      rw [e1, e2, abs_mul, abs_mul]
      gcongr
  · obtain ⟨k, rfl⟩ : ∃ k : ℕ, e = k := ⟨e.natAbs, by omega⟩
    have hu' : u = ((m * 2 ^ k : ℤ) : ℝ) := by rw [hu, zpow_natCast]; push_cast; rfl
    have : u - r = 0 := by
      rw [hu'] at h2 ⊢
      have h3 : |m * 2 ^ k - r| < 1 := by
        rw [← Int.cast_lt (R := ℝ)]; push_cast at h2 ⊢; linarith
      have h4 := abs_lt.1 h3
      have h5 : m * 2 ^ k - r = 0 := by omega
      exact_mod_cast h5
    rw [this]; exact repr_zero

/-- Multiplying by a power of two is exact, unless the result is tiny. -/
theorem Repr.scale {y : ℝ} (h : F.Repr y) {r k : ℤ} (h1 : 0 ≤ r ∨ (2 : ℝ) ^ k ≤ |y| ∧ 2 - (F.bias : ℤ) ≤ k + r) : F.Repr (y * 2 ^ r) := by
  obtain ⟨m, e, hy, hm, he⟩ := h
  refine ⟨m, e + r, by rw [hy, zpow_add₀ (by norm_num)]; ring, hm, ?_⟩
  rcases h1 with h1 | ⟨h1, h2⟩
  · omega
  · have h3 : (2 : ℝ) ^ k ≤ 2 ^ ((F.mant : ℤ) + 1 + e) := by
      refine h1.trans ?_
      rw [hy, abs_mul, abs_of_pos (by positivity : (0 : ℝ) < 2 ^ e), zpow_add₀ (by norm_num) _ e]
      gcongr
      have : (|m| : ℝ) ≤ 2 ^ (F.mant + 1) := by exact_mod_cast hm
      exact_mod_cast this
    have := (zpow_le_zpow_iff_right₀ (by norm_num : (1 : ℝ) < 2)).1 h3
    omega

end FloatFmt

/-! ## The reduction -/

/-- The argument less the exponent, exactly as the float code has it. -/
def redE (r : ℤ) (U : Enc) : Enc := ⟨U.lo - r - U.err, U.hi - r + U.err, 0, U.ok⟩
/-- The exponent. -/
def nearE (U : Enc) : ℤ := ⌊(U.lo + U.hi) / 2 + 1 / 2⌋
/-- Multiplied by a power of two. -/
def scaleE (r : ℤ) (e : Enc) : Enc := ⟨2 ^ r * e.lo, 2 ^ r * e.hi, 2 ^ r * e.err, e.ok⟩
/-- The distance to the exact value, from the polynomial and from the error of the argument. -/
def expD (c : ℚ) (r : ℤ) (U E : Enc) : ℚ := 2 ^ r * (2 / 10 ^ 10 + (E.hi + c + 2 / 10 ^ 10) * (6932 / 10 ^ 4) * U.err)
/-- The reduced argument is well inside the interval and the power of two is harmless. -/
def redOk (r : ℤ) (U E : Enc) : Bool :=
  U.ok && E.ok && decide (-(4095 / 8192) ≤ (redE r U).lo ∧ (redE r U).hi ≤ 4095 / 8192 ∧ U.err ≤ 1 / 10 ^ 6 ∧ -20 ≤ r ∧ r ≤ 20 ∧ E.hi ≤ 2 ∧ -2 ≤ E.lo ∧ E.err ≤ 1) &&
    (decide (0 ≤ r) || decide (1 / 2 ^ 20 ≤ E.lo - E.err) || decide (E.hi + E.err ≤ -(1 / 2 ^ 20)))

theorem f32_bias : FloatFmt.f32.bias = 127 := by decide
theorem mant_f32 : FloatFmt.f32.mant = 23 := by decide

section
variable {calls : String → List RV → RV} {g : Name → RV}

/-- The exponent and the rest of a float away from the middle between two whole numbers. -/
theorem round_away (hl : LinkedIE .f32 calls g Gen.round) {u : ℝ} (hu : FloatFmt.f32.Repr u) {r : ℤ} (hr1 : -20 ≤ r) (hr2 : r ≤ 20) (h : |u - r| ≤ 4095 / 8192) :
    calls "round" [.f u] = .f r ∧ FloatFmt.f32.rne (u - r) = .f (u - r) := by
  have hF : FloatFmt.f32.Wide := FloatFmt.wide_fmtOf true
  have hr1' : (-20 : ℝ) ≤ r := by exact_mod_cast hr1
  have hr2' : (r : ℝ) ≤ 20 := by exact_mod_cast hr2
  have hab := abs_le.1 h
  obtain ⟨r', x, k1, k2, k3, k4, -, -⟩ := round_exponent_ieee hF (bias_lt_mant true) hl hu (by rw [f32_bias]; norm_num; linarith) (by rw [f32_bias]; norm_num; linarith)
  have he : FloatFmt.f32.eps ≤ 1 / 2 ^ 24 := eps_fmtOf true
  have hrr : r' = r := by
    have c1 := abs_le.1 k3
    have c2 := abs_le.1 k4
    norm_num at he
    have c3 : ((r' - r : ℤ) : ℝ) < 1 := by push_cast; linarith
    have c4 : (-1 : ℝ) < ((r' - r : ℤ) : ℝ) := by push_cast; linarith
    have c5 : r' - r < 1 := by exact_mod_cast c3
    have c6 : -1 < r' - r := by exact_mod_cast c4
    omega
  subst hrr
  have hrep : FloatFmt.f32.Repr (u - r') := by
    rcases eq_or_ne r' 0 with h0 | h0
    · simpa [h0] using hu
    · refine hu.sub_int ?_ (h.trans (by norm_num))
      have c1 : (1 : ℝ) ≤ |(r' : ℝ)| := by exact_mod_cast Int.one_le_abs h0
      have c2 := abs_sub_abs_le_abs_sub (r' : ℝ) u
      rw [abs_sub_comm] at c2
      linarith
  refine ⟨k1, FloatFmt.rne_repr hrep (h.trans_lt ?_)⟩
  rw [f32_bias]; norm_num

/-- How the exact value moves with the argument. -/
theorem rpow_move {t s D : ℝ} (h : |t - s| ≤ D) (hD : D ≤ 1 / 10 ^ 6) : |(2 : ℝ) ^ t - 2 ^ s| ≤ 2 ^ t * (6932 / 10 ^ 4) * D := by
  have hl1 := Real.log_two_lt_d9
  have hl2 := Real.log_two_gt_d9
  have hp : (0 : ℝ) < 2 ^ t := by positivity
  obtain ⟨z, hz⟩ : ∃ z, z = Real.log 2 * (s - t) := ⟨_, rfl⟩
  have e : (2 : ℝ) ^ s = 2 ^ t * Real.exp z := by
    rw [hz, ← Real.rpow_def_of_pos (by norm_num), ← Real.rpow_add (by norm_num)]; congr 1; ring
  rw [abs_sub_comm] at h
  have hz1 : |z| ≤ 69315 / 10 ^ 5 * D := by
    rw [hz, abs_mul, abs_of_pos (by linarith)]
    have := abs_nonneg (s - t)
    gcongr
    linarith
  have hD0 : 0 ≤ D := (abs_nonneg _).trans h
  have hz2 : |z| ≤ 1 / 10 ^ 6 := by linarith
  have h3 := Real.abs_exp_sub_one_sub_id_le (x := z) (by norm_num at hz2 ⊢; linarith)
  have h4 : |Real.exp z - 1| ≤ 6932 / 10 ^ 4 * D := by
    have h5 := abs_add_le (Real.exp z - 1 - z) z
    rw [sub_add_cancel] at h5
    have h6 : z ^ 2 ≤ 1 / 10 ^ 6 * |z| := by
      rw [← sq_abs, sq]; gcongr
    norm_num at h6 hz1 ⊢
    linarith
  rw [e, show (2 : ℝ) ^ t - 2 ^ t * Real.exp z = -(2 ^ t * (Real.exp z - 1)) by ring, abs_neg, abs_mul, abs_of_pos hp, mul_assoc]
  gcongr

/-- The polynomial at the reduced argument, scaled. -/
theorem reduced {p : RExpr} {lits : List Enc} {c : ℚ} (hp : EncCode .f32 "x" p (fun t => (2 : ℝ) ^ t - c) (1 / 2) (2 / 10 ^ 10) (polyEnc ulp32 .neither 7 lits))
    {u w : ℝ} {U : Enc} (hU : U.Of u w) {r : ℤ} (hok : redOk r U (polyEnc ulp32 .neither 7 lits (redE r U)) = true) :
    ∃ y q, (∀ calls env, env ["x"] = .f (u - r) → p.denote (ieeeInterp .f32 calls) env = .f y) ∧ FloatFmt.f32.rne (y * 2 ^ r) = .f (y * 2 ^ r) ∧ |u - r| ≤ 4095 / 8192 ∧
      (scaleE r (polyEnc ulp32 .neither 7 lits (redE r U))).Of (y * 2 ^ r) q ∧ |q - (2 ^ w - c * 2 ^ r)| ≤ expD c r U (polyEnc ulp32 .neither 7 lits (redE r U)) := by
  obtain ⟨E, hE⟩ : ∃ E, E = polyEnc ulp32 .neither 7 lits (redE r U) := ⟨_, rfl⟩
  rw [← hE] at hok ⊢
  simp only [redOk, Bool.and_eq_true, Bool.or_eq_true, decide_eq_true_eq] at hok
  obtain ⟨⟨⟨o1, o2⟩, o3, o4, o5, o6, o7, o8, o9, o10⟩, o11⟩ := hok
  have hab := abs_le.1 hU.2.2
  have hX : (redE r U).Of (u - r) (u - r) := by
    refine ⟨?_, ?_, by simp [redE]⟩
    · simp only [redE]; push_cast; linarith [hU.1]
    · simp only [redE]; push_cast; linarith [hU.2.1]
  have c3 := (Rat.cast_le (K := ℝ)).2 o3
  have c4 := (Rat.cast_le (K := ℝ)).2 o4
  have c5 := (Rat.cast_le (K := ℝ)).2 o5
  have c8 := (Rat.cast_le (K := ℝ)).2 o8
  have c9 := (Rat.cast_le (K := ℝ)).2 o9
  have c10 := (Rat.cast_le (K := ℝ)).2 o10
  push_cast at c3 c4 c5 c8 c9 c10
  have hx : |u - r| ≤ 4095 / 8192 := by
    rw [abs_le]; constructor <;> linarith [hX.1, hX.2.1]
  obtain ⟨y, q, y1, y2, y3, y4⟩ := hp _ _ _ hX (hx.trans (by norm_num)) (hE ▸ o2)
  rw [← hE] at y2
  have hy := abs_le.1 y2.2.2
  have hR : (0 : ℝ) < 2 ^ r := by positivity
  have hR20 : (2 : ℝ) ^ r ≤ 2 ^ 20 := by
    rw [← zpow_natCast]; exact zpow_le_zpow_right₀ (by norm_num) (by push_cast; omega)
  refine ⟨y, q * 2 ^ r, y1, FloatFmt.rne_repr (y4.scale (k := -20) ?_) ?_, hx, ⟨?_, ?_, ?_⟩, ?_⟩
  · rcases o11 with (o | o) | o
    · exact .inl o
    · right
      have co := (Rat.cast_le (K := ℝ)).2 o
      push_cast at co
      refine ⟨?_, by rw [f32_bias]; omega⟩
      refine le_trans ?_ (le_abs_self y)
      rw [zpow_neg]
      norm_num at co ⊢
      linarith [y2.1]
    · right
      have co := (Rat.cast_le (K := ℝ)).2 o
      push_cast at co
      refine ⟨?_, by rw [f32_bias]; omega⟩
      refine le_trans ?_ (neg_le_abs y)
      rw [zpow_neg]
      norm_num at co ⊢
      linarith [y2.2.1]
  · rw [abs_mul, abs_of_pos hR]
    have : |y| ≤ 3 := by rw [abs_le]; constructor <;> linarith [y2.1, y2.2.1]
    calc |y| * 2 ^ r ≤ 3 * 2 ^ 20 := by gcongr
      _ < _ := by rw [f32_bias]; norm_num
  · simp only [scaleE]; push_cast; rw [mul_comm]; exact mul_le_mul_of_nonneg_right y2.1 hR.le
  · simp only [scaleE]; push_cast; rw [mul_comm q]; exact mul_le_mul_of_nonneg_left y2.2.1 hR.le
  · simp only [scaleE]; push_cast; rw [← sub_mul, abs_mul, abs_of_pos hR, mul_comm]; exact mul_le_mul_of_nonneg_left y2.2.2 hR.le
  · have hmove := rpow_move (t := u - r) (s := w - r) (D := U.err) (by rw [sub_sub_sub_cancel_right]; exact hU.2.2) c5
    have y3' := abs_le.1 y3
    have hpow : (2 : ℝ) ^ w = 2 ^ (w - r) * 2 ^ r := by rw [← Real.rpow_intCast, ← Real.rpow_add (by norm_num)]; congr 1; ring
    have h2 : (2 : ℝ) ^ (u - r) ≤ E.hi + c + 2 / 10 ^ 10 := by linarith [y2.2.1]
    have hUe := hU.err_nonneg
    rw [hpow, show q * 2 ^ r - ((2 : ℝ) ^ (w - r) * 2 ^ r - c * 2 ^ r) = 2 ^ r * (q - (2 ^ (w - r) - c)) by ring, abs_mul, abs_of_pos hR]
    simp only [expD]
    push_cast
    refine mul_le_mul_of_nonneg_left ?_ hR.le
    calc |q - ((2 : ℝ) ^ (w - r) - c)| = |(q - ((2 : ℝ) ^ (u - r) - c)) + ((2 : ℝ) ^ (u - r) - 2 ^ (w - r))| := by congr 1; ring
      _ ≤ 2 / 10 ^ 10 + 2 ^ (u - r) * (6932 / 10 ^ 4) * U.err := (abs_add_le _ _).trans (add_le_add y3 hmove)
      _ ≤ _ := by gcongr

/-- The generated `exp2` near `w`. -/
theorem exp2_at {p : RExpr} (hp : EncCode .f32 "x" p (fun t => (2 : ℝ) ^ t) (1 / 2) (2 / 10 ^ 10) (polyEnc ulp32 .neither 7 exp2Lits)) (hg : BitConsts .f32 g)
    (hl : LinkedIE .f32 calls g Gen.round) {u w : ℝ} (hu : FloatFmt.f32.Repr u) {U : Enc} (hU : U.Of u w) {r : ℤ}
    (hok : redOk r U (polyEnc ulp32 .neither 7 exp2Lits (redE r U)) = true) :
    ∃ y q, (Gen.exp2 p).apply (ieeeInterp .f32 calls) g [.f u] = .f y ∧ (scaleE r (polyEnc ulp32 .neither 7 exp2Lits (redE r U))).Of y q ∧
      |q - 2 ^ w| ≤ expD 0 r U (polyEnc ulp32 .neither 7 exp2Lits (redE r U)) := by
  have hF : FloatFmt.f32.Wide := FloatFmt.wide_fmtOf true
  obtain ⟨y, q, k1, k2, k3, k4, k5⟩ := reduced (c := 0) (by simpa using hp) hU hok
  simp only [redOk, Bool.and_eq_true, decide_eq_true_eq] at hok
  obtain ⟨⟨-, -, -, -, hr1, hr2, -⟩, -⟩ := hok
  obtain ⟨h1, h2⟩ := round_away hl hu hr1 hr2 k3
  refine ⟨y * 2 ^ r, q, ?_, k4, by simpa using k5⟩
  have hr1' : (-20 : ℝ) ≤ r := by exact_mod_cast hr1
  have hr2' : (r : ℝ) ≤ 20 := by exact_mod_cast hr2
  have hab := abs_le.1 k3
  have hb : ¬ (FloatFmt.f32.bias : ℝ) < u := by rw [f32_bias]; norm_num; linarith
  have hb2 : ¬ (r : ℝ) < -FloatFmt.f32.bias := by rw [f32_bias]; norm_num; linarith
  simp only [Gen.exp2, ofFty_apply, List.map, bindParams]
  simp [h1, h2, hg.exp2_max, hg.exp2_min, hb, hb2]
  rw [scale_ieee hF (bits_fmtOf true) hg r (by rw [f32_bias]; omega) (by rw [f32_bias]; omega) _ (by simp) (by intro s a b c d; simp [a, b, c])]
  rw [k1 _ _ (by simp)]
  simp [k2]

/-- A power of two less one. -/
theorem repr_pow_sub_one {r : ℤ} (hr1 : -20 ≤ r) (hr2 : r ≤ 20) : FloatFmt.f32.Repr ((2 : ℝ) ^ r - 1) := by
  rcases le_or_gt 0 r with h | h
  · obtain ⟨k, rfl⟩ : ∃ k : ℕ, r = k := ⟨r.natAbs, by omega⟩
    refine ⟨2 ^ k - 1, 0, by push_cast; simp, ?_, by decide⟩
    have h1 : (2 : ℤ) ^ k ≤ 2 ^ 20 := pow_le_pow_right₀ (by norm_num) (by omega)
    have h2 : (1 : ℤ) ≤ 2 ^ k := one_le_pow₀ (by norm_num)
    rw [mant_f32, abs_of_nonneg (by linarith)]
    norm_num at *; linarith
  · obtain ⟨k, rfl⟩ : ∃ k : ℕ, r = -k := ⟨r.natAbs, by omega⟩
    refine ⟨1 - 2 ^ k, -k, ?_, ?_, by rw [f32_bias, mant_f32]; omega⟩
    · push_cast
      rw [zpow_neg, zpow_natCast]
      field_simp
    · have h1 : (2 : ℤ) ^ k ≤ 2 ^ 20 := pow_le_pow_right₀ (by norm_num) (by omega)
      have h2 : (1 : ℤ) ≤ 2 ^ k := one_le_pow₀ (by norm_num)
      rw [mant_f32, abs_of_nonpos (by linarith)]
      norm_num at *; linarith

/-- The sum at the end of `exp_m1`. -/
def expm1Enc (r : ℤ) (U : Enc) : Enc := ((scaleE r (polyEnc ulp32 .neither 7 expm1Lits (redE r U))).add ⟨2 ^ r - 1, 2 ^ r - 1, 0, true⟩).round ulp32

/-- The generated `exp_m1`, where the scaled argument is near `w`. -/
theorem expm1_at {p : RExpr} (hp : EncCode .f32 "x" p (fun t => (2 : ℝ) ^ t - 1) (1 / 2) (2 / 10 ^ 10) (polyEnc ulp32 .neither 7 expm1Lits)) (hg : BitConsts .f32 g)
    (hl : LinkedIE .f32 calls g Gen.round) {a c u w : ℝ} (hc : g ["LOG2_E"] = .f c) (hac : FloatFmt.f32.rne (a * c) = .f u) (hu : FloatFmt.f32.Repr u) {U : Enc} (hU : U.Of u w) {r : ℤ}
    (hok : redOk r U (polyEnc ulp32 .neither 7 expm1Lits (redE r U)) = true) (hok' : (expm1Enc r U).ok = true) :
    ∃ y q, (Gen.exp_m1 p).apply (ieeeInterp .f32 calls) g [.f a] = .f y ∧ (expm1Enc r U).Of y q ∧ |q - (2 ^ w - 1)| ≤ expD 1 r U (polyEnc ulp32 .neither 7 expm1Lits (redE r U)) := by
  have hF : FloatFmt.f32.Wide := FloatFmt.wide_fmtOf true
  obtain ⟨y, q, k1, k2, k3, k4, k5⟩ := reduced (c := 1) (by simpa using hp) hU hok
  simp only [redOk, Bool.and_eq_true, decide_eq_true_eq] at hok
  obtain ⟨⟨-, -, -, -, hr1, hr2, -⟩, -⟩ := hok
  obtain ⟨h1, h2⟩ := round_away hl hu hr1 hr2 k3
  have h3 : FloatFmt.f32.rne ((2 : ℝ) ^ r - 1) = .f (2 ^ r - 1) := by
    refine FloatFmt.rne_repr (repr_pow_sub_one hr1 hr2) ?_
    have hR : (0 : ℝ) < 2 ^ r := by positivity
    have hR20 : (2 : ℝ) ^ r ≤ 2 ^ 20 := by
      rw [← zpow_natCast]; exact zpow_le_zpow_right₀ (by norm_num) (by push_cast; omega)
    rw [f32_bias, abs_lt]
    norm_num at *
    constructor <;> linarith
  obtain ⟨z1, z2⟩ := (k4.add (show (⟨2 ^ r - 1, 2 ^ r - 1, 0, true⟩ : Enc).Of ((2 : ℝ) ^ r - 1) (2 ^ r - 1) from ⟨by simp, by simp, by simp⟩)).round hF (ε := ulp32) eps_ulp32 hok'
  refine ⟨_, q + (2 ^ r - 1), ?_, z2, ?_⟩
  · rw [← z1]
    simp only [Gen.exp_m1, ofFty_apply, List.map, bindParams]
    simp [hc, hac, h1, h2]
    rw [scale_ieee hF (bits_fmtOf true) hg r (by rw [f32_bias]; omega) (by rw [f32_bias]; omega) _ (by simp) (by intro s a b c d; simp [a, c, d])]
    rw [k1 _ _ (by simp), numIE_1 hF]
    simp [k2, h3]
  · refine le_trans (le_of_eq ?_) k5
    congr 1; push_cast; ring

end

/-! ## The tests -/

/-- The samples near the points `i` to `j` of the table and the floats next to them. -/
def sampleEnc (a b : ℚ) (N i j : ℕ) : Enc := (⟨a + i * (b - a) / N - 2 / 10 ^ 5, a + j * (b - a) / N + 2 / 10 ^ 5, 0, true⟩ : Enc).round ulp32

def log2eEnc : Enc := Enc.lit ulp32 (1 / 10 ^ 17) invLog2

/-- The condition for `exp2` at an argument in `U`. -/
def exp2Pass (lim : ℚ) (U : Enc) : Bool :=
  let r := nearE U
  let E := polyEnc ulp32 .neither 7 exp2Lits (redE r U)
  redOk r U E && passEnc ulp32 lim (scaleE r E) (expD 0 r U E)

def expm1Pass (lim : ℚ) (U : Enc) : Bool :=
  let r := nearE U
  let E := polyEnc ulp32 .neither 7 expm1Lits (redE r U)
  redOk r U E && passEnc ulp32 lim (expm1Enc r U) (expD 1 r U E)

/-- The runs of samples cover the table and pass. -/
def runsPass (a b : ℚ) (N : ℕ) (pass : Enc → Bool) (runs : List (ℕ × ℕ)) : Bool :=
  ((List.range N).all fun i => runs.any fun p => decide (p.1 ≤ i ∧ i ≤ p.2)) && runs.all fun p => pass (sampleEnc a b N p.1 p.2)

end Verif

import Verif.Lemmas.IeeePoly

/-!
# Enclosures of float computations

An `Enc` encloses an exact number and bounds the distance of a float from it.  The operations on enclosures are computable, so the kernel can bound the
error of generated code on an interval of arguments; they use that a rounded number below a power of two is off by at most half a unit in the last place
below that power.
-/

namespace Verif

/-- A number between `lo` and `hi`, a float within `err` of it. -/
structure Enc where
  lo : ℚ
  hi : ℚ
  err : ℚ
  /-- No intermediate result was large. -/
  ok : Bool
deriving DecidableEq

namespace Enc

/-- The float `y` and the number `p` are as the enclosure says. -/
def Of (e : Enc) (y p : ℝ) : Prop := (e.lo : ℝ) ≤ p ∧ p ≤ e.hi ∧ |y - p| ≤ e.err

def mag (e : Enc) : ℚ := max |e.lo| |e.hi|

theorem Of.abs_le {e : Enc} {y p : ℝ} (h : e.Of y p) : |p| ≤ e.mag := by
  unfold mag
  rw [Rat.cast_max, Rat.cast_abs, Rat.cast_abs]
  exact abs_le_max_abs_abs h.1 h.2.1

theorem Of.err_nonneg {e : Enc} {y p : ℝ} (h : e.Of y p) : (0 : ℝ) ≤ e.err := (abs_nonneg _).trans h.2.2

theorem mag_nonneg (e : Enc) : 0 ≤ e.mag := (abs_nonneg _).trans (le_max_left _ _)

theorem Of.float_le {e : Enc} {y p : ℝ} (h : e.Of y p) : |y| ≤ e.mag + e.err := by
  have := abs_add_le (y - p) p
  rw [sub_add_cancel] at this
  linarith [h.abs_le, h.2.2]

/-- A power of two that is no smaller. -/
def pow2Exp (m : ℚ) : ℕ := Nat.log2 (⌈m * 2 ^ 80⌉.toNat - 1) + 1
def pow2 (m : ℚ) : ℚ := 2 ^ pow2Exp m / 2 ^ 80

theorem le_pow2 (m : ℚ) : m ≤ pow2 m := by
  have h1 : m * 2 ^ 80 ≤ (⌈m * 2 ^ 80⌉.toNat : ℚ) := (Int.le_ceil _).trans (by exact_mod_cast Int.self_le_toNat _)
  have h2 : ⌈m * 2 ^ 80⌉.toNat ≤ 2 ^ pow2Exp m := by
    unfold pow2Exp
    have := @Nat.lt_log2_self (⌈m * 2 ^ 80⌉.toNat - 1)
    omega
  have h3 : (⌈m * 2 ^ 80⌉.toNat : ℚ) ≤ 2 ^ pow2Exp m := by exact_mod_cast h2
  unfold pow2
  rw [le_div_iff₀ (by positivity)]
  exact h1.trans h3

theorem pow2_zpow (m : ℚ) : ((pow2 m : ℚ) : ℝ) = (2 : ℝ) ^ ((pow2Exp m : ℤ) - 80) := by
  unfold pow2
  rw [zpow_sub₀ (by norm_num)]
  push_cast
  norm_num

end Enc

namespace FloatFmt
variable {F : FloatFmt}

/-- Below a power of two the rounding error is at most half a unit in the last place there. -/
theorem rnd_below {x : ℝ} {b : ℤ} (hb : 2 - (F.bias : ℤ) ≤ b) (hx : |x| ≤ (2 : ℝ) ^ b) : |F.rnd x - x| ≤ (2 : ℝ) ^ b * F.eps / 2 := by
  rcases eq_or_lt_of_le hx with h | h
  · have : F.Repr x := by
      rcases abs_choice x with h' | h' <;> rw [h'] at h
      · rw [h]; exact repr_zpow (by omega)
      · rw [show x = -(2 : ℝ) ^ b by linarith]; exact (repr_zpow (by omega)).neg
    rw [rnd_of_repr this, sub_self, abs_zero]
    have := eps_pos (F := F)
    positivity
  · rcases eq_or_ne x 0 with rfl | h0
    · rw [rnd_of_repr ⟨0, 1 - (F.bias : ℤ) - F.mant, by simp, by simp, le_rfl⟩, sub_self, abs_zero]
      have := eps_pos (F := F)
      positivity
    refine (rnd_near x).trans ?_
    have hl : F.lastPlace x ≤ b - 1 - F.mant := by
      unfold lastPlace
      have := (Int.lt_zpow_iff_log_lt (b := 2) (by norm_num) (abs_pos.2 h0)).1 (by exact_mod_cast h)
      omega
    have : (2 : ℝ) ^ F.lastPlace x ≤ (2 : ℝ) ^ b * F.eps := by
      unfold eps
      rw [← zpow_add₀ (by norm_num)]
      exact zpow_le_zpow_right₀ (by norm_num) (by omega)
    linarith

end FloatFmt

namespace Enc

/-- Rounding outwards, to keep the numbers short. -/
def down (q : ℚ) : ℚ := ⌊q * 2 ^ 90⌋ / 2 ^ 90
def up (q : ℚ) : ℚ := ⌈q * 2 ^ 90⌉ / 2 ^ 90

theorem down_le (q : ℚ) : down q ≤ q := by
  unfold down
  rw [div_le_iff₀ (by positivity)]
  exact Int.floor_le _

theorem le_up (q : ℚ) : q ≤ up q := by
  unfold up
  rw [le_div_iff₀ (by positivity)]
  exact Int.le_ceil _

/-- The sum, not rounded. -/
def add (a b : Enc) : Enc := ⟨a.lo + b.lo, a.hi + b.hi, a.err + b.err, a.ok && b.ok⟩
def neg (a : Enc) : Enc := ⟨-a.hi, -a.lo, a.err, a.ok⟩
def sub (a b : Enc) : Enc := a.add b.neg
/-- The product, not rounded. -/
def mul (a b : Enc) : Enc :=
  ⟨min (min (a.lo * b.lo) (a.lo * b.hi)) (min (a.hi * b.lo) (a.hi * b.hi)), max (max (a.lo * b.lo) (a.lo * b.hi)) (max (a.hi * b.lo) (a.hi * b.hi)),
    a.mag * b.err + b.mag * a.err + a.err * b.err, a.ok && b.ok⟩
/-- Rounding to a float. -/
def round (ε : ℚ) (a : Enc) : Enc := ⟨down a.lo, up a.hi, up (a.err + pow2 (a.mag + a.err) * ε / 2), a.ok && decide (a.mag + a.err ≤ 2 ^ 100)⟩

theorem Of.add {a b : Enc} {y p z q : ℝ} (h1 : a.Of y p) (h2 : b.Of z q) : (a.add b).Of (y + z) (p + q) := by
  obtain ⟨h3, h4, h5⟩ := h1
  obtain ⟨h6, h7, h8⟩ := h2
  refine ⟨by simp only [Enc.add]; push_cast; linarith, by simp only [Enc.add]; push_cast; linarith, ?_⟩
  simp only [Enc.add]
  push_cast
  rw [add_sub_add_comm]
  exact (abs_add_le _ _).trans (add_le_add h5 h8)

theorem Of.neg {a : Enc} {y p : ℝ} (h1 : a.Of y p) : a.neg.Of (-y) (-p) := by
  obtain ⟨h3, h4, h5⟩ := h1
  refine ⟨by simp only [Enc.neg]; push_cast; linarith, by simp only [Enc.neg]; push_cast; linarith, ?_⟩
  simp only [Enc.neg]
  rwa [neg_sub_neg, abs_sub_comm]

theorem Of.sub {a b : Enc} {y p z q : ℝ} (h1 : a.Of y p) (h2 : b.Of z q) : (a.sub b).Of (y - z) (p - q) := by
  rw [sub_eq_add_neg, sub_eq_add_neg]
  exact h1.add h2.neg

theorem mul_bounds {l h x l' h' y : ℝ} (h1 : l ≤ x) (h2 : x ≤ h) (h3 : l' ≤ y) (h4 : y ≤ h') :
    min (min (l * l') (l * h')) (min (h * l') (h * h')) ≤ x * y ∧ x * y ≤ max (max (l * l') (l * h')) (max (h * l') (h * h')) := by
  rcases le_total 0 y with hy | hy
  · rcases le_total 0 l with hl | hl <;> rcases le_total 0 h with hh | hh <;> constructor <;> simp only [min_le_iff, le_max_iff]
    all_goals first
      | (left; left; nlinarith) | (left; right; nlinarith) | (right; left; nlinarith) | (right; right; nlinarith)
  · rcases le_total 0 l with hl | hl <;> rcases le_total 0 h with hh | hh <;> constructor <;> simp only [min_le_iff, le_max_iff]
    all_goals first
      | (left; left; nlinarith) | (left; right; nlinarith) | (right; left; nlinarith) | (right; right; nlinarith)

theorem Of.mul {a b : Enc} {y p z q : ℝ} (h1 : a.Of y p) (h2 : b.Of z q) : (a.mul b).Of (y * z) (p * q) := by
  have hb := mul_bounds h1.1 h1.2.1 h2.1 h2.2.1
  refine ⟨by simp only [Enc.mul]; push_cast; exact hb.1, by simp only [Enc.mul]; push_cast; exact hb.2, ?_⟩
  simp only [Enc.mul]
  push_cast
  have e : y * z - p * q = p * (z - q) + q * (y - p) + (y - p) * (z - q) := by ring
  rw [e]
  refine (abs_add_le _ _).trans (add_le_add ((abs_add_le _ _).trans (add_le_add ?_ ?_)) ?_) <;> rw [abs_mul]
  · exact mul_le_mul h1.abs_le h2.2.2 (abs_nonneg _) ((abs_nonneg _).trans h1.abs_le)
  · exact mul_le_mul h2.abs_le h1.2.2 (abs_nonneg _) ((abs_nonneg _).trans h2.abs_le)
  · exact mul_le_mul h1.2.2 h2.2.2 (abs_nonneg _) h1.err_nonneg

theorem Of.round {F : FloatFmt} (hF : F.Wide) {ε : ℚ} (hε : F.eps = ε) {a : Enc} {y p : ℝ} (h1 : a.Of y p) (hok : (a.round ε).ok = true) :
    F.rne y = .f (F.rnd y) ∧ (a.round ε).Of (F.rnd y) p := by
  have hs : a.mag + a.err ≤ 2 ^ 100 := by
    simp only [Enc.round, Bool.and_eq_true, decide_eq_true_eq] at hok
    exact hok.2
  have hy := h1.float_le
  have hs' : |y| ≤ 2 ^ 100 := hy.trans (by exact_mod_cast hs)
  have hb : 100 ≤ F.bias := by
    have h2 : 2 ^ 7 ≤ 2 ^ (F.ebits - 1) := Nat.pow_le_pow_right (by norm_num) (by have := hF.ebits; omega)
    unfold FloatFmt.bias
    omega
  refine ⟨FloatFmt.rne_f hF.ok (hs'.trans (pow_le_pow_right₀ (by norm_num) hb)), ?_, ?_, ?_⟩
  · simp only [Enc.round]
    exact (Rat.cast_le.2 (down_le _)).trans h1.1
  · simp only [Enc.round]
    exact h1.2.1.trans (Rat.cast_le.2 (le_up _))
  · have h2 : |F.rnd y - y| ≤ (pow2 (a.mag + a.err) : ℝ) * F.eps / 2 := by
      have h3 : |y| ≤ (pow2 (a.mag + a.err) : ℝ) := hy.trans (by exact_mod_cast le_pow2 _)
      rw [pow2_zpow] at h3 ⊢
      exact FloatFmt.rnd_below (by omega) h3
    have h4 : ((a.err + pow2 (a.mag + a.err) * ε / 2 : ℚ) : ℝ) ≤ (a.round ε).err := by
      simp only [Enc.round]
      exact Rat.cast_le.2 (le_up _)
    refine le_trans ?_ h4
    push_cast
    rw [← hε]
    have := abs_add_le (F.rnd y - y) (y - p)
    rw [sub_add_sub_cancel] at this
    linarith [h1.2.2]

theorem round_ok {ε : ℚ} {a : Enc} (h : (a.round ε).ok = true) : a.ok = true := by
  simp only [Enc.round, Bool.and_eq_true] at h
  exact h.1

/-- One `mul_add`. -/
def fma (ε : ℚ) (a b c : Enc) : Enc := ((a.mul b).add c).round ε

theorem fma_ok {ε : ℚ} {a b c : Enc} (h : (fma ε a b c).ok = true) : a.ok = true ∧ b.ok = true ∧ c.ok = true := by
  have := round_ok h
  simp only [Enc.add, Enc.mul, Bool.and_eq_true] at this
  exact ⟨this.1.1, this.1.2, this.2⟩

/-- The chain of a polynomial. -/
def chain (ε : ℚ) (U : Enc) (top : Enc) (cs : List Enc) : Enc := cs.foldl (fun acc c => fma ε acc U c) top

theorem chain_ok {ε : ℚ} {U : Enc} (cs : List Enc) {top : Enc} (h : (chain ε U top cs).ok = true) : top.ok = true := by
  induction cs generalizing top with
  | nil => exact h
  | cons c cs ih => exact (fma_ok (ih h)).1

theorem chain_sound {F : FloatFmt} (hF : F.Wide) {ε : ℚ} (hε : F.eps = ε) {U : Enc} {U' u : ℝ} (hU : U.Of U' u) (coeff num : Dec → ℝ) {cs : List Dec} {es : List Enc}
    (hcs : List.Forall₂ (fun (e : Enc) d => e.Of (coeff d) (num d)) es cs) {top : Enc} {a p : ℝ} (ht : top.Of a p) (ha : F.Repr a) (hok : (chain ε U top es).ok = true) :
    ∃ y, cs.foldl (fun acc c => methIE F "mul_add" acc [.f U', .f (coeff c)]) (.f a) = .f y ∧ (chain ε U top es).Of y (cs.foldl (fun acc c => acc * u + num c) p) ∧ F.Repr y := by
  induction hcs generalizing top a p with
  | nil => exact ⟨a, rfl, ht, ha⟩
  | @cons e d es ds h1 _ ih =>
    have hok' : (fma ε top U e).ok = true := chain_ok es hok
    obtain ⟨r1, r2⟩ := ((ht.mul hU).add h1).round hF hε hok'
    obtain ⟨y, i1, i2⟩ := ih r2 (FloatFmt.rnd_repr _) hok
    refine ⟨y, ?_, i2⟩
    rw [List.foldl_cons, methIE_mul_add, r1]
    exact i1

end Enc
end Verif

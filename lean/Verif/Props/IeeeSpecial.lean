import Verif.Props.IeeeArea
import Verif.Props.IeeeInvTrig
import Verif.Props.IeeeSeeds

/-!
# C88: NaN and the infinities as arguments of the generated functions
-/

namespace Verif
open RExpr

/-! ## Operations on NaN and the infinities -/

section
variable (F : FloatFmt)

@[simp] theorem addIE_nan_f (x : ℝ) : binIE F .add .nan (.f x) = .nan := rfl
@[simp] theorem addIE_f_nan (x : ℝ) : binIE F .add (.f x) .nan = .nan := rfl
@[simp] theorem addIE_nan_inf (s : Bool) : binIE F .add .nan (.inf s) = .nan := rfl
@[simp] theorem addIE_inf_nan (s : Bool) : binIE F .add (.inf s) .nan = .nan := rfl
@[simp] theorem addIE_nan_nan : binIE F .add .nan .nan = .nan := rfl
@[simp] theorem addIE_f_inf (x : ℝ) (s : Bool) : binIE F .add (.f x) (.inf s) = .inf s := rfl
@[simp] theorem addIE_inf_f (x : ℝ) (s : Bool) : binIE F .add (.inf s) (.f x) = .inf s := rfl
@[simp] theorem subIE_nan_f (x : ℝ) : binIE F .sub .nan (.f x) = .nan := rfl
@[simp] theorem subIE_f_nan (x : ℝ) : binIE F .sub (.f x) .nan = .nan := rfl
@[simp] theorem subIE_nan_inf (s : Bool) : binIE F .sub .nan (.inf s) = .nan := rfl
@[simp] theorem subIE_inf_nan (s : Bool) : binIE F .sub (.inf s) .nan = .nan := rfl
@[simp] theorem subIE_nan_nan : binIE F .sub .nan .nan = .nan := rfl
@[simp] theorem subIE_f_inf (x : ℝ) (s : Bool) : binIE F .sub (.f x) (.inf s) = .inf !s := rfl
@[simp] theorem subIE_inf_f (x : ℝ) (s : Bool) : binIE F .sub (.inf s) (.f x) = .inf s := rfl
@[simp] theorem mulIE_nan_f (x : ℝ) : binIE F .mul .nan (.f x) = .nan := rfl
@[simp] theorem mulIE_f_nan (x : ℝ) : binIE F .mul (.f x) .nan = .nan := rfl
@[simp] theorem mulIE_nan_inf (s : Bool) : binIE F .mul .nan (.inf s) = .nan := rfl
@[simp] theorem mulIE_inf_nan (s : Bool) : binIE F .mul (.inf s) .nan = .nan := rfl
@[simp] theorem mulIE_nan_nan : binIE F .mul .nan .nan = .nan := rfl
@[simp] theorem mulIE_inf_inf (s t : Bool) : binIE F .mul (.inf s) (.inf t) = .inf (s ^^ t) := rfl
@[simp] theorem divIE_nan_f (x : ℝ) : binIE F .div .nan (.f x) = .nan := rfl
@[simp] theorem divIE_f_nan (x : ℝ) : binIE F .div (.f x) .nan = .nan := rfl
@[simp] theorem divIE_nan_inf (s : Bool) : binIE F .div .nan (.inf s) = .nan := rfl
@[simp] theorem divIE_inf_nan (s : Bool) : binIE F .div (.inf s) .nan = .nan := rfl
@[simp] theorem divIE_nan_nan : binIE F .div .nan .nan = .nan := rfl
@[simp] theorem divIE_f_inf (x : ℝ) (s : Bool) : binIE F .div (.f x) (.inf s) = .f 0 := rfl
@[simp] theorem divIE_inf_inf (s t : Bool) : binIE F .div (.inf s) (.inf t) = .nan := rfl

theorem mulIE_inf_pos {x : ℝ} (h : 0 < x) (s : Bool) : binIE F .mul (.inf s) (.f x) = .inf s := by simp [binIE, mulIE, h.ne', not_lt.2 h.le]
theorem mulIE_inf_neg {x : ℝ} (h : x < 0) (s : Bool) : binIE F .mul (.inf s) (.f x) = .inf !s := by simp [binIE, mulIE, h.ne, h]
theorem mulIE_pos_inf {x : ℝ} (h : 0 < x) (s : Bool) : binIE F .mul (.f x) (.inf s) = .inf s := by simp [binIE, mulIE, h.ne', not_lt.2 h.le]
theorem mulIE_neg_inf {x : ℝ} (h : x < 0) (s : Bool) : binIE F .mul (.f x) (.inf s) = .inf !s := by simp [binIE, mulIE, h.ne, h]
theorem mulIE_zero_inf (s : Bool) : binIE F .mul (.f 0) (.inf s) = .nan := by simp [binIE, mulIE]
theorem mulIE_inf_zero (s : Bool) : binIE F .mul (.inf s) (.f 0) = .nan := by simp [binIE, mulIE]
theorem divIE_inf_nonneg {x : ℝ} (h : 0 ≤ x) (s : Bool) : binIE F .div (.inf s) (.f x) = .inf s := by simp [binIE, divIE, not_lt.2 h]

@[simp] theorem ltIE_nan_f (x : ℝ) : binIE F .lt .nan (.f x) = .b false := rfl
@[simp] theorem ltIE_f_nan (x : ℝ) : binIE F .lt (.f x) .nan = .b false := rfl
@[simp] theorem gtIE_nan_f (x : ℝ) : binIE F .gt .nan (.f x) = .b false := rfl
@[simp] theorem gtIE_f_nan (x : ℝ) : binIE F .gt (.f x) .nan = .b false := rfl
@[simp] theorem gtIE_nan_inf (s : Bool) : binIE F .gt .nan (.inf s) = .b false := by cases s <;> rfl
@[simp] theorem gtIE_inf_nan (s : Bool) : binIE F .gt (.inf s) .nan = .b false := by cases s <;> rfl
@[simp] theorem gtIE_nan_nan : binIE F .gt .nan .nan = .b false := rfl
@[simp] theorem geIE_nan_f (x : ℝ) : binIE F .ge .nan (.f x) = .b false := rfl
@[simp] theorem leIE_nan_f (x : ℝ) : binIE F .le .nan (.f x) = .b false := rfl
@[simp] theorem ltIE_top_f (x : ℝ) : binIE F .lt (.inf false) (.f x) = .b false := by
  simp only [binIE, cmpIE, RV.ereal?, RV.b.injEq, decide_eq_false_iff_not]; exact not_lt.2 le_top
@[simp] theorem ltIE_bot_f (x : ℝ) : binIE F .lt (.inf true) (.f x) = .b true := by
  simp only [binIE, cmpIE, RV.ereal?, RV.b.injEq, decide_eq_true_eq]; exact EReal.bot_lt_coe x
@[simp] theorem leIE_top_f (x : ℝ) : binIE F .le (.inf false) (.f x) = .b false := by
  simp only [binIE, cmpIE, RV.ereal?, RV.b.injEq, decide_eq_false_iff_not]; exact not_le.2 (EReal.coe_lt_top x)
@[simp] theorem gtIE_top_f (x : ℝ) : binIE F .gt (.inf false) (.f x) = .b true := by
  simp only [binIE, cmpIE, RV.ereal?, RV.b.injEq, decide_eq_true_eq]; exact EReal.coe_lt_top x
@[simp] theorem gtIE_f_top (x : ℝ) : binIE F .gt (.f x) (.inf false) = .b false := by
  simp only [binIE, cmpIE, RV.ereal?, RV.b.injEq, decide_eq_false_iff_not]; exact not_lt.2 le_top
@[simp] theorem gtIE_top_top : binIE F .gt (.inf false) (.inf false) = .b false := by
  simp only [binIE, cmpIE, RV.ereal?, RV.b.injEq, decide_eq_false_iff_not]; exact lt_irrefl _

@[simp] theorem negIE_nan : unRV .neg .nan = .nan := rfl
@[simp] theorem negIE_inf (s : Bool) : unRV .neg (.inf s) = .inf !s := rfl
@[simp] theorem absIE_nan : methIE F "abs" .nan [] = .nan := rfl
@[simp] theorem absIE_inf (s : Bool) : methIE F "abs" (.inf s) [] = .inf false := rfl
@[simp] theorem sqrtIE_nan : methIE F "sqrt" .nan [] = .nan := rfl
@[simp] theorem sqrtIE_top : methIE F "sqrt" (.inf false) [] = .inf false := rfl
@[simp] theorem sqrtIE_bot : methIE F "sqrt" (.inf true) [] = .nan := rfl
@[simp] theorem recipIE_nan : methIE F "recip" .nan [] = .nan := rfl
@[simp] theorem recipIE_inf (s : Bool) : methIE F "recip" (.inf s) [] = .f 0 := rfl
@[simp] theorem copysignIE_nan (x : ℝ) : methIE F "copysign" (.f x) [.nan] = .f |x| := rfl
@[simp] theorem copysignIE_inf (x : ℝ) (s : Bool) : methIE F "copysign" (.f x) [.inf s] = .f (if s then -|x| else |x|) := rfl
@[simp] theorem nan_copysignIE (y : RV) : methIE F "copysign" .nan [y] = .nan := rfl
@[simp] theorem mul_addIE_nan (y z : ℝ) : methIE F "mul_add" .nan [.f y, .f z] = .nan := rfl
@[simp] theorem castIE_nan_ity : castIE F ["ity"] .nan = .i 0 := rfl
@[simp] theorem castIE_inf_ity (s : Bool) : castIE F ["ity"] (.inf s) = .i (if s then -2 ^ (F.width - 1) else 2 ^ (F.width - 1) - 1) := rfl

end

section
variable {F : FloatFmt} {calls : String → List RV → RV} {g : Name → RV}

/-- **C88** Generated `round` of NaN is zero. -/
theorem C88_round_wrong (hF : F.Wide) : Gen.round.apply (ieeeInterp F calls) g [.nan] = .f 0 := by
  simp only [Gen.round, ofFty_apply, List.map, bindParams]
  simp [numIE_half hF]
  have := FloatFmt.rne_repr (F := F) FloatFmt.repr_zero (by simp)
  exact this

/-- With a polynomial that keeps NaN, `exp2` keeps it. -/
theorem exp2_nan (hF : F.Wide) (hm : F.ebits ≤ F.mant) (hg : BitConsts F g) (hl : LinkedIE F calls g Gen.round) {p : RExpr} (hp : SpecialIE (ieeeInterp F calls) "x" p) :
    (Gen.exp2 p).apply (ieeeInterp F calls) g [.nan] = .nan := by
  have hr : calls "round" [.nan] = .f 0 := (hl _).trans (C88_round_wrong hF)
  have hb := FloatFmt.bias_pos hF.ok
  have hn : ¬ (0 : ℝ) < -F.bias := by have : (0 : ℝ) ≤ F.bias := by positivity
                                      linarith
  have hs := scale_ieee hF hm hg 0 (calls := calls) (by omega) (by omega) (envSet (envSet g "arg" .nan) "r" (.f 0)) (by simp)
    (fun s h1 _ h3 _ => by simp [h1, h3])
  rw [zpow_zero] at hs
  simp only [Gen.exp2, ofFty_apply, List.map, bindParams]
  simp only [denoteBlock_letT, denoteBlock_letU, denoteBlock_expr, denote_app, denoteArgs_cons, denoteArgs_nil, denote_v, envSet_one, String.reduceEq, if_true, if_false]
  rw [show (ieeeInterp F calls).call ["round"] [.nan] = .f 0 from hr, hs]
  simp [hg.exp2_max, hg.exp2_min, hn, hp.nan _ (by simp : envSet (envSet (envSet (envSet g "arg" .nan) "r" (.f 0)) "mul" (.f 1)) "x" .nan ["x"] = .nan)]

/-- `round` takes the infinities for the bounds of the integer type. -/
theorem round_infinity (hF : F.Wide) (s : Bool) : Gen.round.apply (ieeeInterp F calls) g [.inf s] = .f (if s then -2 ^ (F.width - 1) else 2 ^ (F.width - 1)) := by
  cases s with
  | true =>
    obtain ⟨r, hr, h⟩ := round_inf (calls := calls) (g := g) hF true
    rw [hr]; simpa using h
  | false =>
    have h1 : Gen.round.apply (ieeeInterp F calls) g [.inf false] = F.rne ((2 ^ (F.width - 1) - 1 : ℤ) : ℝ) := by
      simp only [Gen.round, ofFty_apply, List.map, bindParams]
      simp [numIE_half hF]
    have hp : (0 : ℤ) < 2 ^ (F.width - 1) := by positivity
    rw [h1, rne_ity hF (by rw [abs_of_nonneg (by omega)]; omega)]
    congr 1
    have he := hF.ebits
    have hr := FloatFmt.repr_zpow (F := F) (e := ((F.width - 1 : ℕ) : ℤ)) (by have := hF.bias_ge; omega)
    rw [zpow_natCast] at hr
    have hw : (2 : ℝ) ^ (F.width - 1) = 2 * 2 ^ (F.width - 2) := by
      rw [← pow_succ']; congr 1; unfold FloatFmt.width; omega
    have hone : (1 : ℝ) ≤ 2 ^ (F.width - 2) := one_le_pow₀ (by norm_num)
    simp only [Bool.false_eq_true, if_false]
    refine FloatFmt.rnd_eq (E := ((F.width - 2 : ℕ) : ℤ)) hr ?_ (by have := FloatFmt.bias_pos hF.ok; omega) ?_ ?_
    · rw [zpow_natCast]; linarith
    · rw [show ((F.width - 2 : ℕ) : ℤ) - F.mant = ((F.ebits - 1 : ℕ) : ℤ) by unfold FloatFmt.width; omega, zpow_natCast]
      have : (2 : ℝ) ^ 2 ≤ 2 ^ (F.ebits - 1) := pow_le_pow_right₀ (by norm_num) (by omega)
      push_cast
      rw [abs_sub_comm, abs_of_pos (by linarith)]; linarith
    · rw [zpow_natCast]; push_cast; linarith

/-- **C88** Generated `round` of an infinity is a finite number. -/
theorem C88_round_inf_wrong (hF : F.Wide) (s : Bool) : ∃ y, Gen.round.apply (ieeeInterp F calls) g [.inf s] = .f y := ⟨_, round_infinity hF s⟩

/-- **C88** Generated `log2` takes the pattern of NaN for that of one and a half times the next power of two: the result is finite. -/
theorem C88_log2_wrong (hF : F.Wide) (hb4 : F.bias * 4 ≤ 2 ^ F.mant) (hg : BitConsts F g) {p : RExpr} {ε : ℝ} (hε1 : ε ≤ 1 / 4)
    (hp : Approximates (ieeeInterp F calls) "x" p (fun x => Real.logb 2 (x + 3 / 2)) (Set.Icc (-(1 / 2)) (1 / 2)) ε) :
    ∃ y, (Gen.log2 p).apply (ieeeInterp F calls) g [.nan] = .f y ∧ F.Repr y ∧ |y - (F.bias + 1 + Real.logb 2 (3 / 2))| ≤ ε + F.eps * (F.bias + 3) := by
  obtain ⟨P, hP, he⟩ := hp
  have hb := FloatFmt.two_bias hF.ok
  have hb1 := FloatFmt.bias_pos hF.ok
  have hm : (0 : ℝ) ∈ Set.Icc (-(1 / 2) : ℝ) (1 / 2) := ⟨by norm_num, by norm_num⟩
  have hPx : |P 0 - Real.logb 2 (3 / 2)| ≤ ε := by
    have := he _ hm
    simpa only [zero_add] using this
  have hl0 : 0 ≤ Real.logb 2 (3 / 2) := Real.logb_nonneg (by norm_num) (by norm_num)
  have hl1 : Real.logb 2 (3 / 2) ≤ 3 / 4 := by
    rw [Real.logb_le_iff_le_rpow (by norm_num) (by norm_num)]
    have h4 : ((3 / 2 : ℝ)) ^ 4 ≤ ((2 : ℝ) ^ (3 / 4 : ℝ)) ^ 4 := by
      rw [← Real.rpow_natCast ((2 : ℝ) ^ (3 / 4 : ℝ)), ← Real.rpow_mul (by norm_num)]; norm_num
    exact le_of_pow_le_pow_left₀ (by norm_num) (by positivity) h4
  have hM : 0 < 2 ^ F.mant := by positivity
  have hmm : 2 ^ F.mant = 2 * 2 ^ (F.mant - 1) := by rw [← pow_succ']; congr 1; have := hF.mant; omega
  obtain ⟨f, hf⟩ : ∃ f, f = 2 ^ (F.mant - 1) := ⟨_, rfl⟩
  have hf0 : 0 < f := by rw [hf]; positivity
  have hfM : f < 2 ^ F.mant := by omega
  obtain ⟨n, hn⟩ : ∃ n : ℕ, n = (2 ^ F.ebits - 1) * 2 ^ F.mant + f := ⟨_, rfl⟩
  have hlt : n < 2 ^ (F.width - 1) := by
    have := FloatFmt.lt_of_exp (F := F) (E := 2 ^ F.ebits - 1) (f := f) (by omega) hfM
    rw [hn]; simpa [FloatFmt.width] using this
  have hnZ : ((2 ^ F.ebits - 1) * 2 ^ F.mant + 2 ^ (F.mant - 1) : ℤ) = (n : ℤ) := by
    rw [hn, hf]; push_cast [Nat.one_le_two_pow]; ring
  have hwrap : wrapS F.width (n : ℤ) = n := by
    have hw : (2 : ℤ) ^ F.width = 2 * 2 ^ (F.width - 1) := by
      rw [← pow_succ']; congr 1
    have hltZ : (n : ℤ) < 2 ^ (F.width - 1) := by exact_mod_cast hlt
    unfold wrapS
    rw [Int.emod_eq_of_lt (by positivity) (by rw [hw]; linarith)]; ring
  have hshift : ((n : ℕ) : ℤ) / 2 ^ ((F.mant : ℤ)).toNat = (2 ^ F.ebits - 1 : ℕ) := by
    rw [Int.toNat_natCast]
    have : n / 2 ^ F.mant = 2 ^ F.ebits - 1 := hn ▸ FloatFmt.div_of _ f hfM
    exact_mod_cast this
  have hand : Int.land (n : ℤ) ((2 ^ F.mant - 1 : ℕ) : ℤ) = (f : ℤ) := by
    have : n &&& (2 ^ F.mant - 1) = f := by rw [Nat.and_two_pow_sub_one_eq_mod, hn]; exact FloatFmt.frac_of _ f hfM
    rw [← this]; rfl
  have hor : Int.lor (f : ℤ) ((F.bias * 2 ^ F.mant : ℕ) : ℤ) = ((F.bias * 2 ^ F.mant + f : ℕ) : ℤ) := by
    have h1 : ∀ k : ℕ, Int.lor (f : ℤ) (k : ℤ) = ((f ||| k : ℕ) : ℤ) := fun _ => rfl
    rw [h1, Nat.or_comm, Nat.mul_comm, ← Nat.two_pow_add_eq_or_of_lt hfM]
  have hmant : F.decode (F.bias * 2 ^ F.mant + f) = .f (3 / 2) := by
    rw [FloatFmt.decode_normal (F := F) (E := F.bias) (f := f) (by omega) (by omega) hfM]
    congr 1
    rw [sub_self, zpow_zero, mul_one]
    have hmR : (2 : ℝ) ^ F.mant = 2 * f := by rw [hf]; exact_mod_cast hmm
    have : (0 : ℝ) < f := by exact_mod_cast hf0
    rw [hmR]; field_simp; norm_num
  have hltM : ((F.bias * 2 ^ F.mant + f : ℕ) : ℤ) < 2 ^ F.width := by
    have h1 := FloatFmt.lt_of_exp (F := F) (E := F.bias) (f := f) (by omega) hfM
    have h2 : F.bias * 2 ^ F.mant + f < 2 ^ F.width := lt_of_lt_of_le h1 (Nat.pow_le_pow_right (by norm_num) (by unfold FloatFmt.width; omega))
    exact_mod_cast h2
  have hx : F.rne (3 / 2 - 3 / 2) = .f 0 := by
    rw [sub_self]
    exact FloatFmt.rne_repr FloatFmt.repr_zero (by simp)
  have hb4R : (F.bias : ℝ) * 4 ≤ 2 ^ F.mant := by exact_mod_cast hb4
  have hmB : (2 : ℝ) ^ F.mant ≤ 2 ^ F.bias := pow_le_pow_right₀ (by norm_num) (by have := hF.bias_ge; omega)
  have hb29 : (29 : ℝ) ≤ F.bias := by exact_mod_cast hF.bias_ge.2
  have hk : ((2 ^ F.ebits - 1 : ℕ) : ℤ) - F.bias = ((F.bias + 1 : ℕ) : ℤ) := by omega
  have hexpo : F.rne (((F.bias + 1 : ℕ) : ℤ) : ℝ) = .f (F.bias + 1) := by
    have := FloatFmt.rne_repr (F := F) (x := (((F.bias + 1 : ℕ) : ℤ) : ℝ)) (FloatFmt.repr_int hF.ok ?_) ?_
    · rw [this]; push_cast; rfl
    · have : (F.bias : ℤ) * 4 ≤ 2 ^ F.mant := by exact_mod_cast hb4
      rw [pow_succ, abs_of_nonneg (by positivity)]; push_cast; omega
    · rw [pow_succ, abs_of_nonneg (by positivity)]; push_cast; linarith
  have hPb := abs_le.1 hPx
  have hsum := FloatFmt.rne_f (F := F) (x := P 0 + (F.bias + 1)) hF.ok (by rw [abs_le]; constructor <;> linarith)
  have herr := FloatFmt.rnd_err (F := F) (P 0 + (F.bias + 1))
  refine ⟨F.rnd (P 0 + (F.bias + 1)), ?_, FloatFmt.rnd_repr _, ?_⟩
  · simp only [Gen.log2, ofFty_apply, List.map, bindParams]
    simp only [denoteBlock_letT, denoteBlock_expr, denote_ifElse, denote_block, denote_cond, denote_v, denote_method, denoteArgs_nil, denote_lt,
      denote_sub, denote_add, denote_paren, denote_as, denote_binary, denote_fromBits, envSet_one, numIE_0 hF, numIE_15 hF, ieee_bin, ieee_meth, ieee_cast,
      String.reduceEq, if_true, if_false]
    simp only [show methIE F "to_bits" .nan [] = .i (n : ℤ) from by simp only [methIE]; rw [← hnZ], castIE_ity_i, hwrap, hg.log2_shift, hg.log2_offset,
      hg.one_mask, hg.one_bits, hg.min_positive,
      show binIE F .shr (.i (n : ℤ)) (.i (F.mant : ℤ)) = .i (n / 2 ^ ((F.mant : ℤ)).toNat) from rfl,
      show binIE F .bitAnd (.i (n : ℤ)) (.i ((2 ^ F.mant - 1 : ℕ) : ℤ)) = .i (Int.land n ((2 ^ F.mant - 1 : ℕ) : ℤ)) from rfl, hand, hshift,
      show binIE F .bitOr (.i (f : ℤ)) (.i ((F.bias * 2 ^ F.mant : ℕ) : ℤ)) = .i (Int.lor (f : ℤ) ((F.bias * 2 ^ F.mant : ℕ) : ℤ)) from rfl, hor,
      show binIE F .sub (.i ((2 ^ F.ebits - 1 : ℕ) : ℤ)) (.i (F.bias : ℤ)) = .i (((2 ^ F.ebits - 1 : ℕ) : ℤ) - F.bias) from rfl, hk, castIE_fty_i, hexpo, ltIE_nan_f]
    rw [ieee_fromBits F calls _ (by positivity) hltM, Int.toNat_natCast, hmant]
    simp only [binIE_sub, hx, ieee_test, Bool.false_eq_true, if_false]
    rw [hP _ 0 (by simp) hm, binIE_add, hsum]
  · have hε := FloatFmt.eps_pos (F := F)
    have hτ := FloatFmt.tiny_le hF
    norm_num at hτ
    have e1 : |P 0 + (F.bias + 1)| ≤ F.bias + 2 := by rw [abs_le]; constructor <;> linarith
    have e2 : F.eps * (|P 0 + (F.bias + 1)| + F.tiny) ≤ F.eps * (F.bias + 3) := mul_le_mul_of_nonneg_left (by linarith) hε.le
    have e3 := abs_le.1 (herr.trans e2)
    rw [abs_le]; constructor <;> linarith

/-! ## Anything that is a float -/

theorem divIE_isFloat {a b : RV} (ha : a.IsFloat) (hb : b.IsFloat) : (binIE F .div a b).IsFloat := by
  cases ha <;> cases hb <;> try simp [RV.IsFloat.nan, RV.IsFloat.f]
  · simp only [binIE, divIE]; split
    · split <;> constructor
    · exact FloatFmt.rne_isFloat _
  · simp only [binIE, divIE]; constructor

theorem nan_add {b : RV} (h : b.IsFloat) : binIE F .add .nan b = .nan := by cases h <;> rfl
theorem add_nan {b : RV} (h : b.IsFloat) : binIE F .add b .nan = .nan := by cases h <;> rfl
theorem nan_sub {b : RV} (h : b.IsFloat) : binIE F .sub .nan b = .nan := by cases h <;> rfl
theorem sub_nan {b : RV} (h : b.IsFloat) : binIE F .sub b .nan = .nan := by cases h <;> rfl
theorem nan_mul {b : RV} (h : b.IsFloat) : binIE F .mul .nan b = .nan := by cases h <;> rfl
theorem mul_nan {b : RV} (h : b.IsFloat) : binIE F .mul b .nan = .nan := by cases h <;> rfl
theorem nan_div {b : RV} (h : b.IsFloat) : binIE F .div .nan b = .nan := by cases h <;> rfl
theorem div_nan {b : RV} (h : b.IsFloat) : binIE F .div b .nan = .nan := by cases h <;> rfl

theorem FloatFmt.decode_isFloat (n : ℕ) : (F.decode n).IsFloat := by
  unfold decode
  simp only
  split
  · split <;> constructor
  · split <;> constructor

theorem clampZ_mem {lo hi n : ℤ} (h : lo ≤ hi) : lo ≤ clampZ lo hi n ∧ clampZ lo hi n ≤ hi := by
  unfold clampZ; omega

/-- The bits of an unsigned integer made from a float are those of some float. -/
theorem fromBits_isFloat {e : RExpr} {env : Name → RV} (h : (e.denote (ieeeInterp F calls) env).IsFloat) :
    ((fromBits (as e "uty")).denote (ieeeInterp F calls) env).IsFloat := by
  have hp : (0 : ℤ) < 2 ^ F.width := by positivity
  rw [denote_fromBits, denote_as, ieee_cast]
  generalize e.denote (ieeeInterp F calls) env = v at h
  cases h with
  | f x =>
    obtain ⟨h1, h2⟩ := clampZ_mem (lo := 0) (hi := 2 ^ F.width - 1) (n := truncR x) (by omega)
    rw [castIE_uty, ieee_fromBits F calls _ h1 (by omega)]
    exact FloatFmt.decode_isFloat _
  | inf s =>
    rw [show castIE F ["uty"] (.inf s) = .i (if s then 0 else 2 ^ F.width - 1) from rfl, ieee_fromBits F calls _ (by split <;> omega) (by split <;> omega)]
    exact FloatFmt.decode_isFloat _
  | nan =>
    rw [show castIE F ["uty"] .nan = .i 0 from rfl, ieee_fromBits F calls _ le_rfl hp]
    exact FloatFmt.decode_isFloat _

end
end Verif

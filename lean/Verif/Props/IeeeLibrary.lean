import Verif.Props.IeeeBase
import Verif.Props.Program

/-!
# C76: the base functions of the shipped library

`exp2` and `log2` of every float, and the library as a whole.
-/

namespace Verif
open RExpr

section
variable {F : FloatFmt} {calls : String → List RV → RV} {g : Name → RV}

/-- **C76** Generated `log2` takes the pattern of infinity for that of the next power of two: the result is finite. -/
theorem C76_log2_inf (hF : F.Wide) (hb4 : F.bias * 4 ≤ 2 ^ F.mant) (hg : BitConsts F g) {p : RExpr} {ε : ℝ} (hε1 : ε ≤ 1 / 2)
    (hp : Approximates (ieeeInterp F calls) "x" p (fun x => Real.logb 2 (x + 3 / 2)) (Set.Icc (-(1 / 2)) (1 / 2)) ε) :
    ∃ y, (Gen.log2 p).apply (ieeeInterp F calls) g [.inf false] = .f y ∧ F.Repr y ∧ |y - (F.bias + 1)| ≤ ε + F.eps * (F.bias + 1 + 1) := by
  obtain ⟨P, hP, he⟩ := hp
  have hb := FloatFmt.two_bias hF.ok
  have hb1 := FloatFmt.bias_pos hF.ok
  have hm : (-(1 / 2) : ℝ) ∈ Set.Icc (-(1 / 2) : ℝ) (1 / 2) := ⟨le_rfl, by norm_num⟩
  have hPx : |P (-(1 / 2))| ≤ ε := by
    have := he _ hm
    simp only at this
    rwa [show (-(1 / 2) + 3 / 2 : ℝ) = 1 by norm_num, Real.logb_one, sub_zero] at this
  obtain ⟨n, hn⟩ : ∃ n : ℕ, n = (2 ^ F.ebits - 1) * 2 ^ F.mant + 0 := ⟨_, rfl⟩
  have hM : 0 < 2 ^ F.mant := by positivity
  have hlt : n < 2 ^ (F.width - 1) := by
    have := FloatFmt.lt_of_exp (F := F) (E := 2 ^ F.ebits - 1) (f := 0) (by omega) hM
    rw [hn]; simpa [FloatFmt.width] using this
  have hnZ : ((2 ^ F.ebits - 1) * 2 ^ F.mant : ℤ) = (n : ℤ) := by
    rw [hn]; push_cast [Nat.one_le_two_pow]; ring
  have hwrap : wrapS F.width (n : ℤ) = n := by
    have hw : (2 : ℤ) ^ F.width = 2 * 2 ^ (F.width - 1) := by
      rw [← pow_succ']; congr 1
    have hltZ : (n : ℤ) < 2 ^ (F.width - 1) := by exact_mod_cast hlt
    unfold wrapS
    rw [Int.emod_eq_of_lt (by positivity) (by rw [hw]; linarith)]; ring
  have hshift : ((n : ℕ) : ℤ) / 2 ^ ((F.mant : ℤ)).toNat = (2 ^ F.ebits - 1 : ℕ) := by
    rw [Int.toNat_natCast]
    have : n / 2 ^ F.mant = 2 ^ F.ebits - 1 := hn ▸ FloatFmt.div_of _ 0 hM
    exact_mod_cast this
  have hand : Int.land (n : ℤ) ((2 ^ F.mant - 1 : ℕ) : ℤ) = ((0 : ℕ) : ℤ) := by
    have : n &&& (2 ^ F.mant - 1) = 0 := by rw [Nat.and_two_pow_sub_one_eq_mod, hn]; exact FloatFmt.frac_of _ 0 hM
    rw [← this]; rfl
  have hor : Int.lor ((0 : ℕ) : ℤ) ((F.bias * 2 ^ F.mant : ℕ) : ℤ) = ((F.bias * 2 ^ F.mant : ℕ) : ℤ) := by
    have : ∀ k : ℕ, Int.lor ((0 : ℕ) : ℤ) (k : ℤ) = ((0 ||| k : ℕ) : ℤ) := fun _ => rfl
    rw [this, Nat.zero_or]
  have hmant : F.decode (F.bias * 2 ^ F.mant) = .f 1 := by
    have := FloatFmt.decode_normal (F := F) (E := F.bias) (f := 0) (by omega) (by omega) hM
    simpa using this
  have hltM : ((F.bias * 2 ^ F.mant : ℕ) : ℤ) < 2 ^ F.width := by
    have h1 := FloatFmt.lt_of_exp (F := F) (E := F.bias) (f := 0) (by omega) hM
    have h2 : F.bias * 2 ^ F.mant < 2 ^ F.width := lt_of_lt_of_le h1 (Nat.pow_le_pow_right (by norm_num) (by unfold FloatFmt.width; omega))
    exact_mod_cast h2
  have hx : F.rne (1 - 3 / 2) = .f (-(1 / 2)) := by
    rw [show (1 - 3 / 2 : ℝ) = -(1 / 2) by norm_num]
    exact FloatFmt.rne_eighths hF (-4) (by norm_num) (by norm_num)
  have hb4R : (F.bias : ℝ) * 4 ≤ 2 ^ F.mant := by exact_mod_cast hb4
  have hmB : (2 : ℝ) ^ F.mant ≤ 2 ^ F.bias := pow_le_pow_right₀ (by norm_num) (by have := hF.bias_ge; omega)
  have hb29 : (29 : ℝ) ≤ F.bias := by exact_mod_cast hF.bias_ge.2
  have hk : ((2 ^ F.ebits - 1 : ℕ) : ℤ) - F.bias = ((F.bias + 1 : ℕ) : ℤ) := by omega
  have hexpo : F.rne (((F.bias + 1 : ℕ) : ℤ) : ℝ) = .f (F.bias + 1) := by
    have := FloatFmt.rne_repr (F := F) (x := (((F.bias + 1 : ℕ) : ℤ) : ℝ)) (FloatFmt.repr_int hF.ok ?_) ?_
    · rw [this]; push_cast; rfl
    · have : (F.bias : ℤ) * 4 ≤ 2 ^ F.mant := by exact_mod_cast hb4
      rw [pow_succ, abs_of_nonneg (by positivity)]; push_cast; omega
    · rw [pow_succ, abs_of_nonneg (by positivity)]; push_cast; linarith
  have hPb := abs_le.1 hPx
  have hsum := FloatFmt.rne_f (F := F) (x := P (-(1 / 2)) + (F.bias + 1)) hF.ok (by rw [abs_le]; constructor <;> linarith)
  have herr := FloatFmt.rnd_err (F := F) (P (-(1 / 2)) + (F.bias + 1))
  have hl1 : binIE F .lt (.inf false) (.f 0) = .b false := by
    simp only [binIE, cmpIE, RV.ereal?, RV.b.injEq, decide_eq_false_iff_not]
    exact not_lt.2 le_top
  have hl2 : ∀ z : ℝ, binIE F .lt (.inf false) (.f z) = .b false := by
    intro z
    simp only [binIE, cmpIE, RV.ereal?, RV.b.injEq, decide_eq_false_iff_not]
    exact not_lt.2 le_top
  refine ⟨F.rnd (P (-(1 / 2)) + (F.bias + 1)), ?_, FloatFmt.rnd_repr _, ?_⟩
  · simp only [Gen.log2, ofFty_apply, List.map, bindParams]
    simp only [denoteBlock_letT, denoteBlock_expr, denote_ifElse, denote_block, denote_cond, denote_v, denote_method, denoteArgs_nil, denote_lt,
      denote_sub, denote_add, denote_paren, denote_as, denote_binary, denote_fromBits, envSet_one, numIE_0 hF, numIE_15 hF, ieee_bin, ieee_meth, ieee_cast,
      String.reduceEq, if_true, if_false]
    simp only [show methIE F "to_bits" (.inf false) [] = .i (n : ℤ) from by simp only [methIE]; simp [← hnZ], castIE_ity_i, hwrap, hg.log2_shift, hg.log2_offset,
      hg.one_mask, hg.one_bits, hg.min_positive,
      show binIE F .shr (.i (n : ℤ)) (.i (F.mant : ℤ)) = .i (n / 2 ^ ((F.mant : ℤ)).toNat) from rfl,
      show binIE F .bitAnd (.i (n : ℤ)) (.i ((2 ^ F.mant - 1 : ℕ) : ℤ)) = .i (Int.land n ((2 ^ F.mant - 1 : ℕ) : ℤ)) from rfl, hand, hshift,
      show binIE F .bitOr (.i ((0 : ℕ) : ℤ)) (.i ((F.bias * 2 ^ F.mant : ℕ) : ℤ)) = .i (Int.lor ((0 : ℕ) : ℤ) ((F.bias * 2 ^ F.mant : ℕ) : ℤ)) from rfl, hor,
      show binIE F .sub (.i ((2 ^ F.ebits - 1 : ℕ) : ℤ)) (.i (F.bias : ℤ)) = .i (((2 ^ F.ebits - 1 : ℕ) : ℤ) - F.bias) from rfl, hk, castIE_fty_i, hexpo, hl1, hl2]
    rw [ieee_fromBits F calls _ (by positivity) hltM, Int.toNat_natCast, hmant]
    simp only [binIE_sub, hx, ieee_test, Bool.false_eq_true, if_false]
    rw [hP _ (-(1 / 2)) (by simp) hm, binIE_add, hsum]
  · have hε := FloatFmt.eps_pos (F := F)
    have hτ := FloatFmt.tiny_le hF
    norm_num at hτ
    have e1 : |P (-(1 / 2)) + (F.bias + 1)| ≤ F.bias + 1 + ε := by rw [abs_le]; constructor <;> linarith
    have e2 : F.eps * (|P (-(1 / 2)) + (F.bias + 1)| + F.tiny) ≤ F.eps * (F.bias + 1 + 1) := mul_le_mul_of_nonneg_left (by linarith) hε.le
    have e3 := abs_add_le (F.rnd (P (-(1 / 2)) + (F.bias + 1)) - (P (-(1 / 2)) + (F.bias + 1))) (P (-(1 / 2)))
    rw [show F.rnd (P (-(1 / 2)) + (F.bias + 1)) - (P (-(1 / 2)) + (F.bias + 1)) + P (-(1 / 2)) = F.rnd (P (-(1 / 2)) + (F.bias + 1)) - (F.bias + 1) by ring] at e3
    linarith

theorem FloatFmt.repr_of_rne {x y : ℝ} (h : F.rne x = .f y) : F.Repr y := by
  unfold FloatFmt.rne at h
  split_ifs at h
  cases h
  exact FloatFmt.rnd_repr _

theorem repr_of_add {A B : RV} {y : ℝ} (h : binIE F .add A B = .f y) : F.Repr y := by
  cases A <;> cases B <;> simp only [binIE, addIE, binRV] at h <;> first
    | exact FloatFmt.repr_of_rne h
    | cases h
    | (split_ifs at h <;> cases h)
    | (split at h <;> first | cases h | exact FloatFmt.repr_of_rne h)

/-- The result of generated `log2`, if it is a number, is a float. -/
theorem log2_repr (hg : BitConsts F g) {p : RExpr} {a y : ℝ} (h : (Gen.log2 p).apply (ieeeInterp F calls) g [.f a] = .f y) : F.Repr y := by
  simp only [Gen.log2, ofFty_apply, List.map, bindParams] at h
  simp only [denoteBlock_letT, denoteBlock_expr, denote_ifElse, denote_block, denote_cond, denote_neg, denote_v, denote_add, envSet_one, hg.nan, hg.infinity, ieee_bin, ieee_un,
      String.reduceEq, if_true, if_false] at h
  split_ifs at h
  · cases h
  · cases h
  · exact repr_of_add h

/-- **C76** Generated `log2` of minus infinity is a NaN. -/
theorem C76_log2_ninf (hF : F.Wide) (hg : BitConsts F g) {p : RExpr} : (Gen.log2 p).apply (ieeeInterp F calls) g [.inf true] = .nan := by
  have hl1 : binIE F .lt (.inf true) (.f 0) = .b true := by
    simp only [binIE, cmpIE, RV.ereal?, RV.b.injEq, decide_eq_true_eq]
    exact EReal.bot_lt_coe 0
  simp only [Gen.log2, ofFty_apply, List.map, bindParams]
  simp [numIE_0 hF, hl1, hg.nan]
  rfl

end

/-- `calls` runs `log2` with an error `δ` beside one rounding of the result, of every normal number; smaller numbers give minus infinity, negative ones a NaN. -/
structure Log2IE (F : FloatFmt) (calls : String → List RV → RV) (δ : ℝ) : Prop where
  val : ∀ a, F.Repr a → F.tiny ≤ a → a < 2 ^ (F.bias + 1) → ∃ y, calls "log2" [.f a] = .f y ∧ F.Repr y ∧ |y - Real.logb 2 a| ≤ δ + F.eps * |Real.logb 2 a|
  small : ∀ a, a < F.tiny → calls "log2" [.f a] = if a < 0 then .nan else .inf true
  inf : ∃ y, calls "log2" [.inf false] = .f y ∧ F.Repr y ∧ |y - (F.bias + 1)| ≤ δ + F.eps * (F.bias + 1)
  ninf : calls "log2" [.inf true] = .nan

/-- The bound of `log2` in float arithmetic. -/
noncomputable def log2Bound (b32 : Bool) (u w : ℝ) : ℝ := log2Err b32 + 2 * u + 20 * w + log2Ops b32 * (fmtOf b32).eps + (fmtOf b32).eps

section
variable {ext : BdExt} {fx : FloatExt} {b32 : Bool} {u w : ℝ}

theorem log2Bound_small (h : IeeeOk fx b32 u w) (hu : u ≤ 1 / 1000) (hw : w ≤ 1 / 1000) : 0 ≤ log2Bound b32 u w ∧ log2Bound b32 u w ≤ 3 / 100 := by
  have hε := FloatFmt.eps_pos (F := fmtOf b32)
  have heps := eps_fmtOf b32
  have hn := h.nonneg
  have h3 : 0 ≤ log2Err b32 ∧ log2Err b32 ≤ 1 / 1000 := by unfold log2Err; split <;> norm_num
  have h4 : log2Ops b32 * (fmtOf b32).eps ≤ 24 * (1 / 2 ^ 24) :=
    mul_le_mul (by unfold log2Ops; split <;> norm_num) (eps_fmtOf b32) (FloatFmt.eps_pos).le (by norm_num)
  have h5 : 0 ≤ log2Ops b32 * (fmtOf b32).eps := mul_nonneg (by unfold log2Ops; split <;> norm_num) hε.le
  unfold log2Bound
  norm_num at h4 heps
  constructor <;> linarith [hn.1, hn.2]

/-- **C76** `log2` as the program ships it, in float arithmetic, of every float. -/
theorem C76_log2_partial (hf : 5 ≤ ext.fuel) (h : IeeeOk fx b32 u w) (hu : u ≤ 1 / 1000) (hw : w ≤ 1 / 1000) : ∃ e, polynomialCode ext fx b32 .log2 ⟨-5, 1⟩ ⟨5, 1⟩ = .ok e ∧
    ∀ (calls : String → List RV → RV) (g : Name → RV), BitConsts (fmtOf b32) g → LinkedIE (fmtOf b32) calls g (Gen.log2 e.toR) →
      Log2IE (fmtOf b32) calls (log2Bound b32 u w) := by
  obtain ⟨e, h1, h2⟩ := log2_code_ieee (ext := ext) h hu hw hf
  obtain ⟨e', h1', h3⟩ := C83_log2 (ext := ext) hf h hu hw
  rw [h1] at h1'; cases h1'
  have hF := FloatFmt.wide_fmtOf b32
  have hb4 := bias_lt_mant b32
  obtain ⟨hs0, hs1⟩ := log2Bound_small h hu hw
  have hε := FloatFmt.eps_pos (F := fmtOf b32)
  refine ⟨e, h1, fun calls g hg hx => ⟨fun a har ha hb => ?_, fun a ha => ?_, ?_, ?_⟩⟩
  · obtain ⟨q1, q2, q3⟩ := FloatFmt.repr_pattern hF.ok har ha hb
    have hf' : (fmtOf b32).encode a % 2 ^ (fmtOf b32).mant < 2 ^ (fmtOf b32).mant := Nat.mod_lt _ (by positivity)
    have hE : (fmtOf b32).encode a / 2 ^ (fmtOf b32).mant < 2 ^ (fmtOf b32).ebits - 1 := (Nat.div_lt_iff_lt_mul (by positivity)).2 q2
    have hE0 : 0 < (fmtOf b32).encode a / 2 ^ (fmtOf b32).mant := Nat.div_pos q1 (by positivity)
    have hsplit : (fmtOf b32).encode a / 2 ^ (fmtOf b32).mant * 2 ^ (fmtOf b32).mant + (fmtOf b32).encode a % 2 ^ (fmtOf b32).mant = (fmtOf b32).encode a :=
      Nat.div_add_mod' _ _
    rw [← hsplit, FloatFmt.decode_normal hE0 hE hf'] at q3
    have ha' := (RV.f.inj q3)
    obtain ⟨y, hy, he⟩ := h3 calls g hg _ _ hE0 hE hf'
    rw [ha'] at hy he
    refine ⟨y, (hx _).trans hy, log2_repr hg hy, he.trans (le_of_eq ?_)⟩
    unfold log2Bound; ring
  · rw [← C83_log2_small hF hg (p := e.toR) (calls := calls) (by exact ha)]; exact hx _
  · obtain ⟨y, hy, hr, he⟩ := C76_log2_inf hF hb4 hg (by unfold log2Bound at hs1; linarith) (h2 calls).1
    refine ⟨y, (hx _).trans hy, hr, he.trans (le_of_eq ?_)⟩
    unfold log2Bound; ring
  · rw [← C76_log2_ninf hF hg (p := e.toR) (calls := calls)]; exact hx _

end

/-! ## The library -/

/-- The shipped library, run in float arithmetic: every function of the request `all` computes what its body says, with the shipped polynomials and constants. -/
structure Library (ext : BdExt) (fx : FloatExt) (b32 : Bool) (P : Gen.Parts) (calls : String → List RV → RV) (g : Name → RV) : Prop where
  bits : BitConsts (fmtOf b32) g
  consts : DeclaredIE ext b32 calls g
  approx : ∀ s ∈ approxSpecs, ∀ lo hi e, s.bounds = some (lo, hi) → polynomialCode ext fx b32 s lo hi = .ok e → P.approx s.name = e.toR
  linked : LinkedAll (ieeeInterp (fmtOf b32)) g (fnsOf (outputItems b32 P ["all"])) calls

/-- Functions of the library. -/
def libraryNames : List String := ["acos", "acosh", "asin", "asinh", "atan", "atanh", "cos", "cosh", "dnorm", "exp", "exp2", "exp_m1", "ln", "log", "log10", "log2", "powf", "powi", "round", "sin", "sinh", "tan", "tanh"]

theorem libraryNames_output : ∀ n ∈ libraryNames, n ∈ outputNames ["all"] := by decide +kernel

section
variable {ext : BdExt} {fx : FloatExt} {b32 : Bool} {P : Gen.Parts} {calls : String → List RV → RV} {g : Name → RV} {u w : ℝ}

theorem Library.fn (h : Library ext fx b32 P calls g) (n : String) {f : RFn} (hn : n ∈ libraryNames) (hf : Gen.items b32 P n = [.fn f]) :
    LinkedIE (fmtOf b32) calls g f := by
  refine h.linked f ((mem_fnsOf _ _).2 ?_)
  rw [outputItems_names]
  exact List.mem_flatMap.2 ⟨n, libraryNames_output n hn, by rw [hf]; simp⟩

theorem Library.round (h : Library ext fx b32 P calls g) : LinkedIE (fmtOf b32) calls g Gen.round := h.fn "round" (by decide +kernel) rfl

/-- `exp2` of the library. -/
theorem Library.exp2 (h : Library ext fx b32 P calls g) (hf : 5 ≤ ext.fuel) (hx : IeeeOk fx b32 u w) (hu : u ≤ 1 / 1000) (hw : w ≤ 1 / 1000) :
    Exp2IE (fmtOf b32) calls (exp2Bound b32 u w) := by
  obtain ⟨e, h1, h2⟩ := C76_exp2 (ext := ext) hf hx hu hw
  refine h2 calls g h.bits h.round ?_
  have := h.approx .exp2 (by simp [approxSpecs]) _ _ e rfl h1
  exact h.fn "exp2" (by decide +kernel) (by rw [← this]; rfl)

/-- `log2` of the library. -/
theorem Library.log2 (h : Library ext fx b32 P calls g) (hf : 5 ≤ ext.fuel) (hx : IeeeOk fx b32 u w) (hu : u ≤ 1 / 1000) (hw : w ≤ 1 / 1000) :
    Log2IE (fmtOf b32) calls (log2Bound b32 u w) := by
  obtain ⟨e, h1, h2⟩ := C76_log2_partial (ext := ext) hf hx hu hw
  refine h2 calls g h.bits ?_
  have := h.approx .log2 (by simp [approxSpecs]) _ _ e rfl h1
  exact h.fn "log2" (by decide +kernel) (by rw [← this]; rfl)

end

/-- Constants of the library are more exact than floats. -/
theorem constErr_eps (b32 : Bool) : constErr b32 ≤ (fmtOf b32).eps / 1000 := by
  have : (fmtOf b32).eps = if b32 then 1 / 2 ^ 24 else 1 / 2 ^ 53 := by
    cases b32
    · exact eps_f64
    · rw [FloatFmt.eps, show -((fmtOf true).mant : ℤ) - 1 = -24 by decide]; norm_num
  rw [this]
  unfold constErr configDigits
  cases b32 <;> norm_num

/-- There is such a library, for both widths. -/
theorem C76_library_exists (b32 : Bool) : ∃ calls, Library goodExt wideFx b32 (shippedParts goodExt wideFx b32 fun _ => RExpr.num "3.14") calls (bitsIE b32) := by
  obtain ⟨⟨calls, hc⟩, -⟩ := C87_all goodExt wideFx wideFx_plain b32 _ (shippedParts_generated goodExt wideFx b32 (fun _ => RExpr.num "3.14") fun _ => rfl) _ (.inr rfl) (bitsIE b32)
  exact ⟨calls, bitsIE_consts b32, bitsIE_declared b32 calls, fun s hs lo hi e hb he => shippedParts_approx _ hs hb he, hc⟩

end Verif

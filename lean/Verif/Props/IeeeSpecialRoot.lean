import Verif.Props.IeeeSpecialLog

/-! # C88: the roots, the reciprocal, `hypot` and `dnorm` at NaN and at the infinities; C74: `sqrt` of the largest floats -/

namespace Verif
open Gen RExpr

section
variable {b32 : Bool} {calls : String → List RV → RV} {g : Name → RV}

/-- Short numbers are floats. -/
theorem rne_short (b32 : Bool) {x : ℝ} (k : ℤ) (e : ℕ) (hx : x = k * 2 ^ e) (hk : |k| ≤ 2 ^ 24) (he : e ≤ 60) : (fmtOf b32).rne x = .f x := by
  have hb : 127 ≤ (fmtOf b32).bias := by cases b32 <;> decide
  have hm : 23 ≤ (fmtOf b32).mant := by cases b32 <;> decide
  refine FloatFmt.rne_repr ⟨k, e, by rw [hx, zpow_natCast], hk.trans (pow_le_pow_right₀ (by norm_num) (by omega)), by omega⟩ ?_
  have h1 : |(k : ℝ)| ≤ 2 ^ 24 := by exact_mod_cast hk
  rw [hx, abs_mul, abs_of_pos (by positivity : (0 : ℝ) < 2 ^ e)]
  calc |(k : ℝ)| * 2 ^ e ≤ 2 ^ 24 * 2 ^ 60 := mul_le_mul h1 (pow_le_pow_right₀ (by norm_num) he) (by positivity) (by positivity)
    _ < 2 ^ 128 := by norm_num
    _ ≤ 2 ^ ((fmtOf b32).bias + 1) := pow_le_pow_right₀ (by norm_num) (by omega)

/-! ## `sqrt` -/

/-- The estimate of `sqrt` for a pattern that is rounded to that of infinity. -/
theorem sqrt_approx_top (hg : g ["EXP2_ONE"] = .f ((fmtOf b32).bias * 2 ^ (fmtOf b32).mant)) {x a : RV} {N : ℤ} (ha : methIE (fmtOf b32) "abs" x [] = a)
    (hb : methIE (fmtOf b32) "to_bits" a [] = .i N) (hN : (fmtOf b32).rne N = .f ((2 * (fmtOf b32).bias + 1) * 2 ^ (fmtOf b32).mant)) :
    Gen.sqrt_approx.apply (ieeeInterp (fmtOf b32) calls) g [x] = .f (2 ^ (((fmtOf b32).bias + 1) / 2)) := by
  have hF := FloatFmt.wide_fmtOf b32
  have h8 := abs_le.1 (rnd_08 b32)
  have hε := FloatFmt.eps_pos (F := fmtOf b32)
  have hε' := eps_fmtOf b32
  norm_num at hε'
  have h1 : (fmtOf b32).rne ((fmtOf b32).bias * 2 ^ (fmtOf b32).mant * (1 / 2)) = .f ((fmtOf b32).bias * 2 ^ (fmtOf b32).mant * (1 / 2)) :=
    rne_short b32 (fmtOf b32).bias ((fmtOf b32).mant - 1) (by
      rw [show (fmtOf b32).mant = (fmtOf b32).mant - 1 + 1 from by cases b32 <;> rfl, pow_succ]; push_cast; simp; ring) (by cases b32 <;> decide) (by cases b32 <;> decide)
  have h2 : (fmtOf b32).rne ((2 * (fmtOf b32).bias + 1) * 2 ^ (fmtOf b32).mant * (1 / 2) + (fmtOf b32).bias * 2 ^ (fmtOf b32).mant * (1 / 2)) =
      .f (((3 * (fmtOf b32).bias + 1) / 2 * 2 ^ (fmtOf b32).mant : ℕ)) := by
    have hh : ((3 * (fmtOf b32).bias + 1) / 2 * 2 : ℕ) = 3 * (fmtOf b32).bias + 1 := by cases b32 <;> rfl
    have hh' : ((((3 * (fmtOf b32).bias + 1) / 2 : ℕ) : ℝ)) * 2 = 3 * (fmtOf b32).bias + 1 := by exact_mod_cast hh
    rw [show (2 * ((fmtOf b32).bias : ℝ) + 1) * 2 ^ (fmtOf b32).mant * (1 / 2) + (fmtOf b32).bias * 2 ^ (fmtOf b32).mant * (1 / 2) =
      (((3 * (fmtOf b32).bias + 1) / 2 * 2 ^ (fmtOf b32).mant : ℕ) : ℝ) by push_cast at hh' ⊢; linear_combination (-1 / 2 * 2 ^ (fmtOf b32).mant) * hh']
    exact rne_short b32 ((3 * (fmtOf b32).bias + 1) / 2 : ℕ) (fmtOf b32).mant (by push_cast; rfl) (by cases b32 <;> decide) (by cases b32 <;> decide)
  have h3 : (fmtOf b32).decode ((3 * (fmtOf b32).bias + 1) / 2 * 2 ^ (fmtOf b32).mant) = .f (2 ^ (((fmtOf b32).bias + 1) / 2)) := by
    cases b32 <;> norm_num [fmtOf, FloatFmt.f32, FloatFmt.f64, FloatFmt.bias, FloatFmt.decode]
  have h4 : ((3 * (fmtOf b32).bias + 1) / 2 * 2 ^ (fmtOf b32).mant : ℕ) < 2 ^ (fmtOf b32).width := by
    cases b32 <;> decide
  have h5 : (fmtOf b32).rne (2 ^ (((fmtOf b32).bias + 1) / 2) - (fmtOf b32).rnd (8 / 100)) = .f (2 ^ (((fmtOf b32).bias + 1) / 2)) := by
    have hp : (2 : ℝ) ^ (((fmtOf b32).bias + 1) / 2) = 2 * 2 ^ (((fmtOf b32).bias + 1) / 2 - 1) := by
      rw [← pow_succ']; congr 1; cases b32 <;> rfl
    have hq : (2 : ℝ) ^ 60 ≤ 2 ^ (((fmtOf b32).bias + 1) / 2 - 1) := pow_le_pow_right₀ (by norm_num) (by cases b32 <;> decide)
    have hr : (fmtOf b32).rnd (2 ^ (((fmtOf b32).bias + 1) / 2) - (fmtOf b32).rnd (8 / 100)) = 2 ^ (((fmtOf b32).bias + 1) / 2) := by
      refine FloatFmt.rnd_eq (E := (((fmtOf b32).bias + 1) / 2 - 1 : ℕ)) (repr_two_pow b32 _) ?_ (by cases b32 <;> decide) ?_ ?_
      · rw [zpow_natCast, hp]; linarith [(by positivity : (0 : ℝ) < 2 ^ (((fmtOf b32).bias + 1) / 2 - 1))]
      · have h1 : (1 : ℝ) ≤ (2 : ℝ) ^ ((((fmtOf b32).bias + 1) / 2 - 1 : ℕ) - ((fmtOf b32).mant : ℤ)) :=
          one_le_zpow₀ (by norm_num) (by cases b32 <;> decide)
        rw [abs_lt]; constructor <;> linarith
      · rw [zpow_natCast, hp]; norm_num at hq; linarith
    rw [FloatFmt.rne_f hF.ok (by
      rw [abs_of_nonneg (by norm_num at hq; linarith)]
      have : (2 : ℝ) ^ (((fmtOf b32).bias + 1) / 2) ≤ 2 ^ (fmtOf b32).bias := pow_le_pow_right₀ (by norm_num) (by cases b32 <;> decide)
      linarith), hr]
  simp only [Gen.sqrt_approx, Gen.powerScale, ofFty_apply, List.map, bindParams, denoteBlock_letT]
  have hd : (fromBits (as (.paren (.paren (.method (.paren (as (.method (.method (v "x") "abs" []) "to_bits" []) "fty")) "mul_add" [num "0.5", v "EXP2_ONE" * num "0.5"]))) "uty")).denote
      (ieeeInterp (fmtOf b32) calls) (envSet g "x" x) = .f (2 ^ (((fmtOf b32).bias + 1) / 2)) := by
    rw [denote_fromBits, denote_as]
    simp only [denote_paren, denote_method, denote_as, denote_mul, denoteArgs_cons, denoteArgs_nil, denote_v, numIE_half hF, ieee_cast, ieee_meth, ieee_bin, ha, hb, castIE_fty_i, hN,
      show envSet g "x" x ["x"] = x by simp, show envSet g "x" x ["EXP2_ONE"] = g ["EXP2_ONE"] by simp, hg, binIE_mul, h1, methIE_mul_add, h2, castIE_uty]
    have hc := truncR_int (((3 * (fmtOf b32).bias + 1) / 2 * 2 ^ (fmtOf b32).mant : ℕ) : ℤ)
    rw [Int.cast_natCast] at hc
    rw [hc, clampZ_self (by positivity) (by have : (((3 * (fmtOf b32).bias + 1) / 2 * 2 ^ (fmtOf b32).mant : ℕ) : ℤ) < 2 ^ (fmtOf b32).width := by exact_mod_cast h4
                                            omega), ieee_fromBits _ calls _ (by positivity) (by exact_mod_cast h4), Int.toNat_natCast, h3]
  rw [hd]
  simp [numIE_08, h5]

/-- The estimates are floats. -/
theorem powerScale_isFloat {n : String} {sc off co : RExpr} {x : RV} (hg : (g ["EXP2_ONE"]).IsFloat) (hx : x.IsFloat) (h1 : ∀ env, (sc.denote (ieeeInterp (fmtOf b32) calls) env).IsFloat)
    (h2 : ∀ env, (off.denote (ieeeInterp (fmtOf b32) calls) env).IsFloat)
    (h3 : ∀ env : Name → RV, (env ["y"]).IsFloat → env ["x"] = x → (co.denote (ieeeInterp (fmtOf b32) calls) env).IsFloat) :
    ((Gen.powerScale n sc off co).apply (ieeeInterp (fmtOf b32) calls) g [x]).IsFloat := by
  simp only [Gen.powerScale, ofFty_apply, List.map, bindParams, denoteBlock_letT]
  simp only [denoteBlock_expr]
  refine h3 _ ?_ (by simp)
  rw [show ∀ (e : Name → RV) (a : RV), envSet e "y" a ["y"] = a by intro e a; simp]
  refine fromBits_isFloat ?_
  simp only [denote_paren, denote_method, denote_as, denote_mul, denoteArgs_cons, denoteArgs_nil, denote_v, ieee_cast, ieee_meth, ieee_bin,
    show envSet g "x" x ["x"] = x by simp, show envSet g "x" x ["EXP2_ONE"] = g ["EXP2_ONE"] by simp]
  refine mul_addIE_isFloat ?_ (h1 _) (mulIE_isFloat hg (h2 _))
  cases hx with
  | f a => simp [FloatFmt.rne_isFloat]
  | inf s => simp only [absIE_inf]; exact FloatFmt.rne_isFloat _
  | nan => exact FloatFmt.rne_isFloat _

theorem sqrt_approx_isFloat (hg : (g ["EXP2_ONE"]).IsFloat) {x : RV} (hx : x.IsFloat) : (Gen.sqrt_approx.apply (ieeeInterp (fmtOf b32) calls) g [x]).IsFloat := by
  have hF := FloatFmt.wide_fmtOf b32
  refine powerScale_isFloat hg hx (fun env => ?_) (fun env => ?_) fun env hy _ => ?_
  · rw [numIE_half hF]; exact .f _
  · rw [numIE_half hF]; exact .f _
  · simp only [denote_sub, denote_v, numIE_08, ieee_bin]
    exact subIE_isFloat hy (.f _)

theorem sqrt_run (hc : LinkedIE (fmtOf b32) calls g Gen.sqrt_approx) (x : RV) : Gen.sqrt.apply (ieeeInterp (fmtOf b32) calls) g [x] =
    let r := Gen.sqrt_approx.apply (ieeeInterp (fmtOf b32) calls) g [x]
    binIE (fmtOf b32) .add r (binIE (fmtOf b32) .div (binIE (fmtOf b32) .sub x (binIE (fmtOf b32) .mul r r)) (binIE (fmtOf b32) .mul (.f 2) r)) := by
  have h : calls "sqrt_approx" [x] = _ := hc [x]
  simp only [Gen.sqrt, ofFty_apply, List.map, bindParams]
  simp [h, numIE_2]

/-- **C88** `sqrt` of a NaN. -/
theorem C88_sqrt (hg : (g ["EXP2_ONE"]).IsFloat) (hc : LinkedIE (fmtOf b32) calls g Gen.sqrt_approx) : Gen.sqrt.apply (ieeeInterp (fmtOf b32) calls) g [.nan] = .nan := by
  have h := sqrt_approx_isFloat (calls := calls) (b32 := b32) hg .nan
  simp only [sqrt_run hc]
  rw [nan_sub (mulIE_isFloat h h), nan_div (mulIE_isFloat (.f _) h), add_nan h]

/-- The step of `sqrt` when the square of the estimate overflows. -/
theorem sqrt_run_top (hc : LinkedIE (fmtOf b32) calls g Gen.sqrt_approx) {x : RV} (h : Gen.sqrt_approx.apply (ieeeInterp (fmtOf b32) calls) g [x] = .f (2 ^ (((fmtOf b32).bias + 1) / 2))) :
    Gen.sqrt.apply (ieeeInterp (fmtOf b32) calls) g [x] =
      binIE (fmtOf b32) .add (.f (2 ^ (((fmtOf b32).bias + 1) / 2))) (binIE (fmtOf b32) .div (binIE (fmtOf b32) .sub x (.inf false)) (.f (2 * 2 ^ (((fmtOf b32).bias + 1) / 2)))) := by
  simp only [sqrt_run hc, h, binIE_mul]
  rw [rne_over (b32 := b32) (by rw [← pow_add]; exact pow_le_pow_right₀ (by norm_num) (by cases b32 <;> decide)), FloatFmt.rne_repr (by rw [← pow_succ']; exact repr_two_pow b32 _)
    (by rw [← pow_succ', abs_of_pos (by positivity)]; exact pow_lt_pow_right₀ (by norm_num) (by cases b32 <;> decide))]

/-- **C88** `sqrt` of infinity is a NaN, and of negative infinity negative infinity. -/
theorem C88_sqrt_wrong (hg : g ["EXP2_ONE"] = .f ((fmtOf b32).bias * 2 ^ (fmtOf b32).mant)) (hc : LinkedIE (fmtOf b32) calls g Gen.sqrt_approx) :
    Gen.sqrt.apply (ieeeInterp (fmtOf b32) calls) g [.inf false] = .nan ∧ Gen.sqrt.apply (ieeeInterp (fmtOf b32) calls) g [.inf true] = .inf true := by
  have key : ∀ s, Gen.sqrt_approx.apply (ieeeInterp (fmtOf b32) calls) g [.inf s] = .f (2 ^ (((fmtOf b32).bias + 1) / 2)) := fun s => by
    refine sqrt_approx_top hg (N := ((2 * (fmtOf b32).bias + 1) * 2 ^ (fmtOf b32).mant : ℕ)) (absIE_inf _ s) ?_ ?_
    · simp only [methIE]
      cases b32 <;> simp [fmtOf, FloatFmt.f32, FloatFmt.f64, FloatFmt.bias]
    · rw [rne_short b32 (2 * (fmtOf b32).bias + 1 : ℕ) (fmtOf b32).mant (by push_cast; rfl) (by cases b32 <;> decide) (by cases b32 <;> decide)]
      push_cast; rfl
  rw [sqrt_run_top hc (key _), sqrt_run_top hc (key _)]
  have hp : (0 : ℝ) ≤ 2 * 2 ^ (((fmtOf b32).bias + 1) / 2) := by positivity
  constructor
  · rw [show binIE (fmtOf b32) .sub (.inf false) (.inf false) = .nan from rfl]; simp
  · rw [show binIE (fmtOf b32) .sub (.inf true) (.inf false) = .inf true from rfl, divIE_inf_nonneg _ hp]; simp

/-- **C74** `sqrt` of the largest floats, the last `2^(ebits-2)-1` of them, is negative infinity: the pattern is rounded up to that of infinity. -/
theorem C74_sqrt_max_wrong (hg : g ["EXP2_ONE"] = .f ((fmtOf b32).bias * 2 ^ (fmtOf b32).mant)) (hc : LinkedIE (fmtOf b32) calls g Gen.sqrt_approx) {x : ℝ} (hx : 0 ≤ x)
    (h1 : (fmtOf b32).encode x ≤ (2 * (fmtOf b32).bias + 1) * 2 ^ (fmtOf b32).mant) (h2 : (2 * (fmtOf b32).bias + 1) * 2 ^ (fmtOf b32).mant < (fmtOf b32).encode x + 2 ^ ((fmtOf b32).ebits - 2)) :
    Gen.sqrt.apply (ieeeInterp (fmtOf b32) calls) g [.f x] = .inf true := by
  have hF := FloatFmt.wide_fmtOf b32
  have hp : (0 : ℝ) ≤ 2 * 2 ^ (((fmtOf b32).bias + 1) / 2) := by positivity
  have hE : 2 ^ ((fmtOf b32).mant + (fmtOf b32).ebits - 1) + 2 ^ ((fmtOf b32).ebits - 2) ≤ (2 * (fmtOf b32).bias + 1) * 2 ^ (fmtOf b32).mant := by cases b32 <;> decide
  have hE' : (2 : ℝ) ^ ((fmtOf b32).mant + (fmtOf b32).ebits - 1) + 2 ^ ((fmtOf b32).ebits - 2) ≤ (2 * (fmtOf b32).bias + 1) * 2 ^ (fmtOf b32).mant := by exact_mod_cast hE
  have h1' : ((fmtOf b32).encode x : ℝ) ≤ (2 * (fmtOf b32).bias + 1) * 2 ^ (fmtOf b32).mant := by exact_mod_cast h1
  have h2' : (2 * (fmtOf b32).bias + 1) * 2 ^ (fmtOf b32).mant < ((fmtOf b32).encode x : ℝ) + 2 ^ ((fmtOf b32).ebits - 2) := by exact_mod_cast h2
  have hP : (2 : ℝ) ^ ((((fmtOf b32).mant + (fmtOf b32).ebits - 1 : ℕ) : ℤ) - (fmtOf b32).mant) / 2 = 2 ^ ((fmtOf b32).ebits - 2) := by
    rw [show ((((fmtOf b32).mant + (fmtOf b32).ebits - 1 : ℕ) : ℤ) - (fmtOf b32).mant) = (((fmtOf b32).ebits - 2 : ℕ) : ℤ) + 1 from by cases b32 <;> decide, zpow_add_one₀ (by norm_num), zpow_natCast]
    ring
  have h0 : (0 : ℝ) < 2 ^ ((fmtOf b32).ebits - 2) := by positivity
  have hs := rne_short b32 (x := (2 * (fmtOf b32).bias + 1) * 2 ^ (fmtOf b32).mant) (2 * (fmtOf b32).bias + 1 : ℕ) (fmtOf b32).mant (by push_cast; rfl) (by cases b32 <;> decide) (by cases b32 <;> decide)
  have hr : (fmtOf b32).Repr ((2 * (fmtOf b32).bias + 1) * 2 ^ (fmtOf b32).mant) := by
    refine ⟨(2 * (fmtOf b32).bias + 1 : ℕ), (fmtOf b32).mant, by push_cast; rw [zpow_natCast], by cases b32 <;> decide, by cases b32 <;> decide⟩
  have key : Gen.sqrt_approx.apply (ieeeInterp (fmtOf b32) calls) g [.f x] = .f (2 ^ (((fmtOf b32).bias + 1) / 2)) := by
    refine sqrt_approx_top hg (N := (fmtOf b32).encode x) (a := .f x) (by rw [methIE_abs, abs_of_nonneg hx]) (by simp) ?_
    rw [Int.cast_natCast, FloatFmt.rne_f hF.ok]
    · congr 1
      refine FloatFmt.rnd_eq (E := ((fmtOf b32).mant + (fmtOf b32).ebits - 1 : ℕ)) hr ?_ (by cases b32 <;> decide) ?_ ?_
      · rw [zpow_natCast]; linarith
      · rw [hP, abs_lt]; constructor <;> linarith
      · rw [zpow_natCast]; linarith
    · rw [abs_of_nonneg (Nat.cast_nonneg _)]
      have := pattern_room b32
      have : (0 : ℝ) ≤ (2 * (fmtOf b32).bias + 1) * 2 ^ (fmtOf b32).mant := by positivity
      linarith
  rw [sqrt_run_top hc key, subIE_f_inf, Bool.not_false, divIE_inf_nonneg _ hp, addIE_f_inf]

/-! ## `recip` -/

/-- The estimate of `recip` when the pattern is beyond the largest one that has a reciprocal. -/
theorem recip_approx_top (hg : g ["EXP2_ONE"] = .f ((fmtOf b32).bias * 2 ^ (fmtOf b32).mant)) {x a : RV} {N : ℤ} {K : ℝ} (ha : methIE (fmtOf b32) "abs" x [] = a)
    (hb : methIE (fmtOf b32) "to_bits" a [] = .i N) (hN : (fmtOf b32).rne N = .f K) (hK : 2 * (fmtOf b32).bias * 2 ^ (fmtOf b32).mant ≤ K) (hK2 : K ≤ 2 ^ ((fmtOf b32).bias - 1)) :
    Gen.recip_approx.apply (ieeeInterp (fmtOf b32) calls) g [x] = methIE (fmtOf b32) "copysign" (.f (-(fmtOf b32).rnd (8 / 100))) [x] := by
  have hF := FloatFmt.wide_fmtOf b32
  have hB : (0 : ℝ) ≤ (fmtOf b32).bias * 2 ^ (fmtOf b32).mant := by positivity
  have hp2 : (2 : ℝ) ^ (fmtOf b32).bias = 2 * 2 ^ ((fmtOf b32).bias - 1) := by rw [← pow_succ']; congr 1; cases b32 <;> rfl
  have hpp : (0 : ℝ) < 2 ^ ((fmtOf b32).bias - 1) := by positivity
  have h1 : (fmtOf b32).rne ((fmtOf b32).bias * 2 ^ (fmtOf b32).mant * 2) = .f ((fmtOf b32).bias * 2 ^ (fmtOf b32).mant * 2) :=
    rne_short b32 (fmtOf b32).bias ((fmtOf b32).mant + 1) (by rw [pow_succ]; push_cast; ring) (by cases b32 <;> decide) (by cases b32 <;> decide)
  have hneg : K * -1 + (fmtOf b32).bias * 2 ^ (fmtOf b32).mant * 2 ≤ 0 := by linarith
  have h2 : (fmtOf b32).rne (K * -1 + (fmtOf b32).bias * 2 ^ (fmtOf b32).mant * 2) = .f ((fmtOf b32).rnd (K * -1 + (fmtOf b32).bias * 2 ^ (fmtOf b32).mant * 2)) :=
    FloatFmt.rne_f hF.ok (by rw [abs_of_nonpos hneg]; linarith)
  have hrn := FloatFmt.rnd_le (F := fmtOf b32) FloatFmt.repr_zero hneg
  have hp : (0 : ℤ) < 2 ^ (fmtOf b32).width := by positivity
  have hz : clampZ 0 (2 ^ (fmtOf b32).width - 1) (truncR ((fmtOf b32).rnd (K * -1 + (fmtOf b32).bias * 2 ^ (fmtOf b32).mant * 2))) = 0 := by
    have : truncR ((fmtOf b32).rnd (K * -1 + (fmtOf b32).bias * 2 ^ (fmtOf b32).mant * 2)) ≤ 0 := by
      unfold truncR
      split
      · exact_mod_cast Int.floor_nonpos hrn
      · simp only [Int.ceil_le]; exact_mod_cast hrn
    unfold clampZ; omega
  simp only [Gen.recip_approx, Gen.powerScale, ofFty_apply, List.map, bindParams, denoteBlock_letT]
  have hd : (fromBits (as (.paren (.paren (.method (.paren (as (.method (.method (v "x") "abs" []) "to_bits" []) "fty")) "mul_add" [-num "1.0", v "EXP2_ONE" * num "2.0"]))) "uty")).denote
      (ieeeInterp (fmtOf b32) calls) (envSet g "x" x) = .f 0 := by
    rw [denote_fromBits, denote_as]
    simp only [denote_paren, denote_method, denote_as, denote_mul, denote_neg, denoteArgs_cons, denoteArgs_nil, denote_v, numIE_1 hF, numIE_2, ieee_cast, ieee_meth, ieee_bin, ieee_un, ha, hb, castIE_fty_i, hN,
      show envSet g "x" x ["x"] = x by simp, show envSet g "x" x ["EXP2_ONE"] = g ["EXP2_ONE"] by simp, hg, binIE_mul, h1, show unRV .neg (.f 1) = .f (-1) from rfl, methIE_mul_add, h2, castIE_uty]
    rw [hz, ieee_fromBits _ calls _ le_rfl hp, Int.toNat_zero, FloatFmt.decode_subnormal hF.ok (by positivity)]; simp
  rw [hd]
  have h8 : (fmtOf b32).rne (-(fmtOf b32).rnd (8 / 100)) = .f (-(fmtOf b32).rnd (8 / 100)) := by
    refine FloatFmt.rne_repr (FloatFmt.rnd_repr _).neg ?_
    have h8 := abs_le.1 (rnd_08 b32)
    have hε' := eps_fmtOf b32
    norm_num at hε'
    have : (1 : ℝ) ≤ 2 ^ ((fmtOf b32).bias + 1) := one_le_pow₀ (by norm_num)
    rw [abs_neg, abs_lt]; constructor <;> linarith
  simp [numIE_08, h8]

theorem rnd_08_pos (b32 : Bool) : 0 < (fmtOf b32).rnd (8 / 100) := by
  have h8 := abs_le.1 (rnd_08 b32)
  have hε' := eps_fmtOf b32
  norm_num at hε'
  linarith

theorem rne_top_pattern (b32 : Bool) : (fmtOf b32).rne (((2 ^ (fmtOf b32).ebits - 1) * 2 ^ (fmtOf b32).mant : ℤ)) = .f (2 * (fmtOf b32).bias * 2 ^ (fmtOf b32).mant + 2 ^ (fmtOf b32).mant) := by
  have h : (((2 ^ (fmtOf b32).ebits - 1) * 2 ^ (fmtOf b32).mant : ℤ)) = (2 * (fmtOf b32).bias + 1 : ℤ) * 2 ^ (fmtOf b32).mant := by
    congr 1; cases b32 <;> rfl
  rw [h, rne_short b32 (2 * (fmtOf b32).bias + 1 : ℤ) (fmtOf b32).mant (by push_cast; rfl) (by cases b32 <;> decide) (by cases b32 <;> decide)]
  push_cast; congr 1; ring

theorem rne_nan_pattern (b32 : Bool) : ∃ K, (fmtOf b32).rne (((2 ^ (fmtOf b32).ebits - 1) * 2 ^ (fmtOf b32).mant + 2 ^ ((fmtOf b32).mant - 1) : ℤ)) = .f K ∧
    2 * (fmtOf b32).bias * 2 ^ (fmtOf b32).mant ≤ K ∧ K ≤ 2 ^ ((fmtOf b32).bias - 1) := by
  have h : (((2 ^ (fmtOf b32).ebits - 1) * 2 ^ (fmtOf b32).mant + 2 ^ ((fmtOf b32).mant - 1) : ℤ)) = (4 * (fmtOf b32).bias + 3 : ℤ) * 2 ^ ((fmtOf b32).mant - 1) := by
    cases b32 <;> rfl
  refine ⟨_, (by rw [h]; exact rne_short b32 (4 * (fmtOf b32).bias + 3 : ℤ) ((fmtOf b32).mant - 1) (by push_cast; rfl) (by cases b32 <;> decide) (by cases b32 <;> decide)), ?_, ?_⟩
  · push_cast
    have : (2 : ℝ) ^ (fmtOf b32).mant = 2 * 2 ^ ((fmtOf b32).mant - 1) := by rw [← pow_succ']; congr 1; cases b32 <;> rfl
    have hp : (0 : ℝ) < 2 ^ ((fmtOf b32).mant - 1) := by positivity
    rw [this]; nlinarith
  · have h1 : (4 * ((fmtOf b32).bias : ℝ) + 3) * 2 ^ ((fmtOf b32).mant - 1) ≤ 2 ^ 100 := by
      cases b32 <;> norm_num [fmtOf, FloatFmt.f32, FloatFmt.f64, FloatFmt.bias]
    push_cast
    exact h1.trans (pow_le_pow_right₀ (by norm_num) (by cases b32 <;> decide))

theorem recip_run (hc : LinkedIE (fmtOf b32) calls g Gen.recip_approx) (x : RV) : Gen.recip.apply (ieeeInterp (fmtOf b32) calls) g [x] =
    let step := fun r => binIE (fmtOf b32) .mul r (binIE (fmtOf b32) .sub (.f 2) (binIE (fmtOf b32) .mul x r))
    step (step (step (Gen.recip_approx.apply (ieeeInterp (fmtOf b32) calls) g [x]))) := by
  have h : calls "recip_approx" [x] = _ := hc [x]
  simp only [Gen.recip, Gen.recipStep, ofFty_apply, List.map, bindParams]
  simp [h, numIE_2]

/-- **C88** `recip` of a NaN. -/
theorem C88_recip (hg : g ["EXP2_ONE"] = .f ((fmtOf b32).bias * 2 ^ (fmtOf b32).mant)) (hc : LinkedIE (fmtOf b32) calls g Gen.recip_approx) :
    Gen.recip.apply (ieeeInterp (fmtOf b32) calls) g [.nan] = .nan := by
  obtain ⟨K, h1, h2, h3⟩ := rne_nan_pattern b32
  simp only [recip_run hc, recip_approx_top hg (absIE_nan _) (show methIE (fmtOf b32) "to_bits" .nan [] = _ from rfl) h1 h2 h3]
  simp

/-- **C88** `recip` of an infinity is the opposite infinity; it should be zero. -/
theorem C88_recip_wrong (hg : g ["EXP2_ONE"] = .f ((fmtOf b32).bias * 2 ^ (fmtOf b32).mant)) (hc : LinkedIE (fmtOf b32) calls g Gen.recip_approx) (s : Bool) :
    Gen.recip.apply (ieeeInterp (fmtOf b32) calls) g [.inf s] = .inf !s := by
  have h8 := rnd_08_pos b32
  have h1 := rne_top_pattern b32
  have hM : (0 : ℝ) < 2 ^ (fmtOf b32).mant := by positivity
  have h3 : 2 * ((fmtOf b32).bias : ℝ) * 2 ^ (fmtOf b32).mant + 2 ^ (fmtOf b32).mant ≤ 2 ^ ((fmtOf b32).bias - 1) := by
    have h1 : 2 * ((fmtOf b32).bias : ℝ) * 2 ^ (fmtOf b32).mant + 2 ^ (fmtOf b32).mant ≤ 2 ^ 100 := by
      cases b32 <;> norm_num [fmtOf, FloatFmt.f32, FloatFmt.f64, FloatFmt.bias]
    exact h1.trans (pow_le_pow_right₀ (by norm_num) (by cases b32 <;> decide))
  simp only [recip_run hc, recip_approx_top hg (absIE_inf _ s) (show methIE (fmtOf b32) "to_bits" (.inf false) [] = .i ((2 ^ (fmtOf b32).ebits - 1) * 2 ^ (fmtOf b32).mant) by simp [methIE]) h1
    (by linarith) h3]
  have hneg : -(fmtOf b32).rnd (8 / 100) < 0 := by linarith
  cases s <;> simp [abs_of_pos h8, mulIE_inf_pos _ h8, mulIE_pos_inf _ h8, mulIE_inf_neg _ hneg, mulIE_neg_inf _ hneg]

/-! ## `cbrt` -/

/-- One step of `cbrt`. -/
noncomputable def cbrtStepIE (F : FloatFmt) (x r : RV) : RV :=
  binIE F .add r (binIE F .div (binIE F .sub x (binIE F .mul (binIE F .mul r r) r)) (binIE F .mul (binIE F .mul (.f 3) r) r))

theorem rne_nonneg {F : FloatFmt} {x : ℝ} (h : 0 ≤ x) : (∃ y, F.rne x = .f y ∧ 0 ≤ y) ∨ F.rne x = .inf false := by
  have h1 := FloatFmt.le_rnd (F := F) FloatFmt.repr_zero h
  unfold FloatFmt.rne
  split
  · exact .inl ⟨_, rfl, h1⟩
  · right; simp [h]

theorem rne_nonpos {F : FloatFmt} {x : ℝ} (h : x < 0) : (∃ y, F.rne x = .f y ∧ y ≤ 0) ∨ F.rne x = .inf true := by
  have h1 := FloatFmt.rnd_le (F := F) FloatFmt.repr_zero h.le
  unfold FloatFmt.rne
  split
  · exact .inl ⟨_, rfl, h1⟩
  · right; simp [h]

theorem top_sub {F : FloatFmt} {a : RV} (h : a.IsFloat) : binIE F .sub (.inf false) a = .nan ∨ binIE F .sub (.inf false) a = .inf false := by
  cases h with
  | f x => right; rfl
  | inf s => cases s; exacts [.inl rfl, .inr rfl]
  | nan => left; rfl

theorem cbrt_denominator {F : FloatFmt} {ρ : ℝ} : (∃ d, binIE F .mul (binIE F .mul (.f 3) (.f ρ)) (.f ρ) = .f d ∧ 0 ≤ d) ∨ binIE F .mul (binIE F .mul (.f 3) (.f ρ)) (.f ρ) = .inf false := by
  rw [binIE_mul]
  rcases lt_or_ge ρ 0 with h | h
  · rcases rne_nonpos (F := F) (x := 3 * ρ) (by linarith) with ⟨y, hy, h1⟩ | hy
    · rw [hy, binIE_mul]; exact rne_nonneg (mul_nonneg_of_nonpos_of_nonpos h1 h.le)
    · right; rw [hy, mulIE_inf_neg _ h]; rfl
  · rcases rne_nonneg (F := F) (x := 3 * ρ) (by linarith) with ⟨y, hy, h1⟩ | hy
    · rw [hy, binIE_mul]; exact rne_nonneg (mul_nonneg h1 h)
    · rcases h.eq_or_lt with rfl | h0
      · rw [mul_zero, show F.rne 0 = .f 0 from FloatFmt.rne_repr FloatFmt.repr_zero (by simp)] at hy; simp at hy
      · right; rw [hy, mulIE_inf_pos _ h0]

/-- The first step from an infinite argument. -/
theorem cbrt_step_top {F : FloatFmt} {r : RV} (h : r.IsFloat) : cbrtStepIE F (.inf false) r = .nan ∨ cbrtStepIE F (.inf false) r = .inf false := by
  have hn := top_sub (F := F) (mulIE_isFloat (F := F) (mulIE_isFloat (F := F) h h) h)
  unfold cbrtStepIE
  cases h with
  | nan => left; rcases hn with hn | hn <;> rw [hn] <;> simp
  | inf s =>
    left
    simp only [mulIE_inf_inf, mulIE_pos_inf F (by norm_num : (0 : ℝ) < 3)]
    rcases top_sub (F := F) (.inf (s ^^ s ^^ s)) with hn | hn <;> rw [hn] <;> simp
  | f ρ =>
    rcases hn with hn | hn <;> rw [hn] <;> rcases cbrt_denominator (F := F) (ρ := ρ) with ⟨d, hd, hd0⟩ | hd <;> rw [hd]
    · left; simp
    · left; simp
    · right; simp [divIE_inf_nonneg F hd0]
    · left; simp

theorem cbrt_step_twice {F : FloatFmt} {r : RV} (h : r.IsFloat) : cbrtStepIE F (.inf false) (cbrtStepIE F (.inf false) r) = .nan := by
  rcases cbrt_step_top (F := F) h with h | h <;> rw [h]
  · simp [cbrtStepIE]
  · simp only [cbrtStepIE, mulIE_inf_inf, mulIE_pos_inf F (by norm_num : (0 : ℝ) < 3)]
    rw [show binIE F .sub (.inf false) (.inf (false ^^ false ^^ false)) = .nan from rfl]; simp

theorem cbrt_step_nan {F : FloatFmt} {x r : RV} (h : r.IsFloat) (hx : x = .nan ∨ r = .nan) (hf : x.IsFloat) : cbrtStepIE F x r = .nan := by
  unfold cbrtStepIE
  rcases hx with rfl | rfl
  · rw [nan_sub (mulIE_isFloat (mulIE_isFloat h h) h), nan_div (mulIE_isFloat (mulIE_isFloat (.f _) h) h), add_nan h]
  · rw [nan_add]
    exact divIE_isFloat (subIE_isFloat hf (mulIE_isFloat (mulIE_isFloat .nan .nan) .nan)) (mulIE_isFloat (mulIE_isFloat (.f _) .nan) .nan)

theorem cbrt_run {x : RV} (hx : x.IsFloat) (h1 : (g ["EXP2_ONE"]).IsFloat) (h2 : (g ["ONE_THIRD"]).IsFloat) (h3 : (g ["TWO_THIRDS"]).IsFloat) :
    ∃ r : RV, r.IsFloat ∧ Gen.cbrt.apply (ieeeInterp (fmtOf b32) calls) g [x] = methIE (fmtOf b32) "copysign" (cbrtStepIE (fmtOf b32) (methIE (fmtOf b32) "abs" x [])
      (cbrtStepIE (fmtOf b32) (methIE (fmtOf b32) "abs" x []) (cbrtStepIE (fmtOf b32) (methIE (fmtOf b32) "abs" x []) (cbrtStepIE (fmtOf b32) (methIE (fmtOf b32) "abs" x []) r)))) [x] := by
  refine ⟨(fromBits (as (.paren (.method (.paren (as (.method (.method (v "x") "abs" []) "to_bits" []) "fty")) "mul_add" [v "ONE_THIRD", v "EXP2_ONE" * v "TWO_THIRDS"])) "uty")).denote
    (ieeeInterp (fmtOf b32) calls) (envSet g "x" x), ?_, ?_⟩
  · refine fromBits_isFloat ?_
    simp only [denote_paren, denote_method, denote_as, denote_mul, denoteArgs_cons, denoteArgs_nil, denote_v, ieee_cast, ieee_meth, ieee_bin,
      show envSet g "x" x ["x"] = x by simp, show envSet g "x" x ["EXP2_ONE"] = g ["EXP2_ONE"] by simp, show envSet g "x" x ["ONE_THIRD"] = g ["ONE_THIRD"] by simp,
      show envSet g "x" x ["TWO_THIRDS"] = g ["TWO_THIRDS"] by simp]
    refine mul_addIE_isFloat ?_ h2 (mulIE_isFloat h1 h3)
    cases hx with
    | f a => simp [FloatFmt.rne_isFloat]
    | inf s => simp only [absIE_inf]; exact FloatFmt.rne_isFloat _
    | nan => exact FloatFmt.rne_isFloat _
  · simp only [Gen.cbrt, ofFty_apply, List.map, bindParams, denoteBlock_letT]
    generalize (fromBits _).denote (ieeeInterp (fmtOf b32) calls) _ = r
    simp [Gen.cbrtStep, cbrtStepIE, numIE_3]

/-- **C88** `cbrt` of a NaN. -/
theorem C88_cbrt (h1 : (g ["EXP2_ONE"]).IsFloat) (h2 : (g ["ONE_THIRD"]).IsFloat) (h3 : (g ["TWO_THIRDS"]).IsFloat) : Gen.cbrt.apply (ieeeInterp (fmtOf b32) calls) g [.nan] = .nan := by
  obtain ⟨r, hr, h⟩ := cbrt_run (b32 := b32) (calls := calls) .nan h1 h2 h3
  have hs : ∀ r : RV, r.IsFloat → cbrtStepIE (fmtOf b32) .nan r = .nan := fun r hr => cbrt_step_nan hr (.inl rfl) .nan
  rw [h, absIE_nan, hs r hr, hs _ .nan, hs _ .nan, hs _ .nan, nan_copysignIE]

/-- **C88** `cbrt` of an infinity is a NaN. -/
theorem C88_cbrt_wrong (h1 : (g ["EXP2_ONE"]).IsFloat) (h2 : (g ["ONE_THIRD"]).IsFloat) (h3 : (g ["TWO_THIRDS"]).IsFloat) (s : Bool) :
    Gen.cbrt.apply (ieeeInterp (fmtOf b32) calls) g [.inf s] = .nan := by
  obtain ⟨r, hr, h⟩ := cbrt_run (b32 := b32) (calls := calls) (.inf s) h1 h2 h3
  have hs : cbrtStepIE (fmtOf b32) (.inf false) .nan = .nan := cbrt_step_nan .nan (.inr rfl) (.inf _)
  rw [h, absIE_inf, cbrt_step_twice hr, hs, hs, nan_copysignIE]

/-! ## `hypot` -/

theorem rne_sqrt_one (b32 : Bool) : methIE (fmtOf b32) "sqrt" (.f 1) [] = .f 1 := by
  rw [methIE_sqrt (F := fmtOf b32) (x := 1) zero_le_one, Real.sqrt_one, rne_one]

/-- **C88** `hypot` of an infinity and a number is infinity. -/
theorem C88_hypot_inf (hg : BitConsts (fmtOf b32) g) (s : Bool) (y : ℝ) :
    Gen.hypot.apply (ieeeInterp (fmtOf b32) calls) g [.inf s, .f y] = .inf false ∧ Gen.hypot.apply (ieeeInterp (fmtOf b32) calls) g [.f y, .inf s] = .inf false := by
  have hF := FloatFmt.wide_fmtOf b32
  constructor <;>
  · simp only [Gen.hypot, ofFty_apply, List.map, bindParams]
    simp [hg.min_positive, numIE_1 hF, rne_zero, rne_one, rne_sqrt_one, mulIE_inf_pos]

/-- **C88** `hypot` keeps a NaN in its second argument, and one in its first unless the second is at most the smallest normal number. -/
theorem C88_hypot_partial (hg : BitConsts (fmtOf b32) g) : (∀ x : RV, x.IsFloat → Gen.hypot.apply (ieeeInterp (fmtOf b32) calls) g [x, .nan] = .nan) ∧
    (∀ y : ℝ, (fmtOf b32).tiny < |y| → Gen.hypot.apply (ieeeInterp (fmtOf b32) calls) g [.nan, .f y] = .nan) ∧
    ∀ s, Gen.hypot.apply (ieeeInterp (fmtOf b32) calls) g [.nan, .inf s] = .nan := by
  have hF := FloatFmt.wide_fmtOf b32
  refine ⟨fun x hx => ?_, fun y hy => ?_, fun s => ?_⟩
  · have h1 : binIE (fmtOf b32) .gt (methIE (fmtOf b32) "abs" x []) .nan = .b false := by cases hx <;> simp
    have h2 := div_nan (F := fmtOf b32) hx
    simp only [Gen.hypot, ofFty_apply, List.map, bindParams]
    simp [hg.min_positive, numIE_1 hF, h1, h2]
  · simp only [Gen.hypot, ofFty_apply, List.map, bindParams]
    simp [hg.min_positive, numIE_1 hF]
    simpa [FloatFmt.tiny] using hy
  · simp only [Gen.hypot, ofFty_apply, List.map, bindParams]
    simp [hg.min_positive, numIE_1 hF]

/-- **C88** `hypot` of a NaN and a small number is that number; `hypot` of two infinities is a NaN. -/
theorem C88_hypot_wrong (hg : BitConsts (fmtOf b32) g) : (∀ y : ℝ, |y| ≤ (fmtOf b32).tiny → Gen.hypot.apply (ieeeInterp (fmtOf b32) calls) g [.nan, .f y] = .f y) ∧
    ∀ s t, Gen.hypot.apply (ieeeInterp (fmtOf b32) calls) g [.inf s, .inf t] = .nan := by
  have hF := FloatFmt.wide_fmtOf b32
  refine ⟨fun y hy => ?_, fun s t => ?_⟩
  · simp only [Gen.hypot, ofFty_apply, List.map, bindParams]
    simp [hg.min_positive, numIE_1 hF]
    simpa [FloatFmt.tiny] using hy
  · simp only [Gen.hypot, ofFty_apply, List.map, bindParams]
    simp [hg.min_positive, numIE_1 hF]

end

/-! ## `dnorm` -/

section
variable {ext : BdExt} {fx : FloatExt} {b32 : Bool} {P : Gen.Parts} {calls : String → List RV → RV} {g : Name → RV} {u w : ℝ}

theorem sqrt_recip_bounds : 39 / 100 ≤ √(1 / (2 * Real.pi)) ∧ √(1 / (2 * Real.pi)) ≤ 2 / 5 := by
  have h1 := Real.pi_gt_d2
  have h2 := Real.pi_lt_d2
  constructor
  · refine Real.le_sqrt_of_sq_le ?_
    rw [le_div_iff₀ (by linarith)]; norm_num at h2 ⊢; linarith
  · rw [Real.sqrt_le_left (by norm_num), div_le_iff₀ (by linarith)]; norm_num at h1 ⊢; linarith

theorem LibraryOk.sqrt_recip (h : LibraryOk ext fx b32 P calls g u w) : ∃ c, g ["SQRT_RECIP_2PI"] = .f c ∧ 0 < c ∧ c ≤ 1 ∧ |c - √(1 / (2 * Real.pi))| ≤ (fmtOf b32).eps / 2 := by
  obtain ⟨h1, h2⟩ := sqrt_recip_bounds
  obtain ⟨c, hc, -, he⟩ := h.const (name := "SQRT_RECIP_2PI") (m := √(1 / (2 * Real.pi))) (by simp [constMeaning]) (by rw [abs_le]; constructor <;> linarith)
  rw [abs_of_pos (by linarith : 0 < √(1 / (2 * Real.pi)))] at he
  have hε := FloatFmt.eps_pos (F := fmtOf b32)
  have heps := eps_fmtOf b32
  norm_num at heps
  have he2 : |c - √(1 / (2 * Real.pi))| ≤ (fmtOf b32).eps / 2 := he.trans (by nlinarith)
  have := abs_le.1 he2
  exact ⟨c, hc, by linarith, by linarith, he2⟩

theorem LibraryOk.dnorm_run (h : LibraryOk ext fx b32 P calls g u w) : ∃ k c : ℝ, k < 0 ∧ 0 < c ∧ c ≤ 1 ∧ |c - √(1 / (2 * Real.pi))| ≤ (fmtOf b32).eps / 2 ∧
    |k - -(1 / (2 * Real.log 2))| ≤ 2 * (fmtOf b32).eps ∧ ∀ x m s : RV, calls "dnorm" [x, m, s] =
    let r := binIE (fmtOf b32) .div (.f 1) s
    let y := binIE (fmtOf b32) .mul (binIE (fmtOf b32) .sub x m) r
    binIE (fmtOf b32) .mul (binIE (fmtOf b32) .mul r (.f c)) (calls "exp2" [binIE (fmtOf b32) .mul (binIE (fmtOf b32) .mul (.f k) y) y]) := by
  obtain ⟨a, ha, har, hae, ha1, ha2⟩ := h.log2_e
  obtain ⟨c, hc, hc0, hc1, hce⟩ := h.sqrt_recip
  have hε := FloatFmt.eps_pos (F := fmtOf b32)
  have hF := FloatFmt.wide_fmtOf b32
  have hk : |-(1 / 2) * a| ≤ 2 ^ 100 := by rw [abs_le]; constructor <;> norm_num <;> linarith
  have hkn : (fmtOf b32).rnd (-(1 / 2) * a) ≤ -(1 / 2) := FloatFmt.rnd_le (by
    have := FloatFmt.repr_zpow (F := fmtOf b32) (e := -1) (by cases b32 <;> decide)
    rw [zpow_neg_one] at this
    rw [one_div]; exact this.neg) (by linarith)
  refine ⟨(fmtOf b32).rnd (-(1 / 2) * a), c, by linarith, hc0, hc1, hce, ?_, fun x m s => ?_⟩
  · have e1 := FloatFmt.rnd_err (F := fmtOf b32) (-(1 / 2) * a)
    have ht := FloatFmt.tiny_le hF
    norm_num at ht
    rw [show |-(1 / 2) * a| = 1 / 2 * a by rw [neg_mul, abs_neg, abs_of_pos (by linarith)]] at e1
    have e2 : (fmtOf b32).eps * (1 / 2 * a + (fmtOf b32).tiny) ≤ (fmtOf b32).eps * (9 / 10) := mul_le_mul_of_nonneg_left (by linarith) hε.le
    have e3 : 1 / (2 * Real.log 2) = 1 / 2 * (1 / Real.log 2) := by ring
    have := abs_le.1 (e1.trans e2)
    have := abs_le.1 hae
    rw [e3, abs_le]; constructor <;> linarith
  rw [show calls "dnorm" [x, m, s] = _ from h.fn "dnorm" (by decide +kernel) rfl [x, m, s]]
  simp only [Gen.dnorm, ofFty_apply, List.map, bindParams]
  have hh := rne_small (b32 := b32) hk
  simp only [denoteBlock_letT, denoteBlock_expr, denote_v, denote_sub, denote_mul, denote_div, denote_neg, denote_paren, denote_as, denote_app, denoteArgs_cons, denoteArgs_nil,
    numIE_1 hF, numIE_half hF, ieee_bin, ieee_un, ieee_cast, ieee_call, castIE_fty, show unRV .neg (.f (1 / 2)) = .f (-(1 / 2)) from rfl]
  rw [neg_mul] at hh
  simp [ha, hc, hh, -one_div]

/-- **C88** A NaN in any argument of `dnorm` gives a NaN. -/
theorem C88_dnorm (h : LibraryOk ext fx b32 P calls g u w) {x m s : RV} (hx : x.IsFloat) (hm : m.IsFloat) (hs : s.IsFloat) (hn : x = .nan ∨ m = .nan ∨ s = .nan) : calls "dnorm" [x, m, s] = .nan := by
  obtain ⟨k, c, -, -, -, -, -, hr⟩ := h.dnorm_run
  have hd : (binIE (fmtOf b32) .div (.f 1) s).IsFloat := divIE_isFloat (.f _) hs
  have hy : binIE (fmtOf b32) .mul (binIE (fmtOf b32) .sub x m) (binIE (fmtOf b32) .div (.f 1) s) = .nan := by
    rcases hn with rfl | rfl | rfl
    · rw [nan_sub hm, nan_mul hd]
    · rw [sub_nan hx, nan_mul hd]
    · rw [div_nan (.f _), mul_nan (subIE_isFloat hx hm)]
  simp only [hr, hy, mulIE_f_nan, mulIE_nan_nan, C88_exp2 h]
  exact mul_nan (mulIE_isFloat hd (.f _))

/-- **C88** `dnorm` at an infinity, or with an infinite mean, is zero. -/
theorem C88_dnorm_inf (h : LibraryOk ext fx b32 P calls g u w) {s : ℝ} (hs : (fmtOf b32).tiny ≤ s) (hs2 : s < 2 ^ ((fmtOf b32).bias + 1)) (t : Bool) (m : ℝ) :
    calls "dnorm" [.inf t, .f m, .f s] = .f 0 ∧ calls "dnorm" [.f m, .inf t, .f s] = .f 0 := by
  have hF := FloatFmt.wide_fmtOf b32
  obtain ⟨k, c, hk, hc, hc1, -, -, hr⟩ := h.dnorm_run
  have hs0 : 0 < s := FloatFmt.tiny_pos.trans_le hs
  have hle : 1 / s ≤ 2 ^ ((fmtOf b32).bias - 1) := by
    rw [div_le_iff₀ hs0]
    have : (fmtOf b32).tiny * 2 ^ ((fmtOf b32).bias - 1) = 1 := by
      have : 1 ≤ (fmtOf b32).bias := by cases b32 <;> decide
      rw [FloatFmt.tiny, ← zpow_natCast (2 : ℝ), ← zpow_add₀ (by norm_num), show 1 - ((fmtOf b32).bias : ℤ) + (((fmtOf b32).bias - 1 : ℕ) : ℤ) = 0 by omega, zpow_zero]
    nlinarith [(by positivity : (0 : ℝ) < 2 ^ ((fmtOf b32).bias - 1))]
  have hbb : (2 : ℝ) ^ ((fmtOf b32).bias - 1) ≤ 2 ^ (fmtOf b32).bias := pow_le_pow_right₀ (by norm_num) (by omega)
  have h1 : (fmtOf b32).rne (1 / s) = .f ((fmtOf b32).rnd (1 / s)) := FloatFmt.rne_f hF.ok (by rw [abs_of_pos (by positivity)]; linarith)
  have hr0 : 0 < (fmtOf b32).rnd (1 / s) := by
    have h2 : (2 : ℝ) ^ (-(((fmtOf b32).bias : ℤ) + 1)) ≤ 1 / s := by
      rw [zpow_neg, ← one_div]
      exact one_div_le_one_div_of_le hs0 (by have := hs2.le; rw [← zpow_natCast] at this; exact_mod_cast this)
    have hm : 2 ≤ (fmtOf b32).mant := by cases b32 <;> decide
    have h3 := FloatFmt.repr_zpow (F := fmtOf b32) (e := -(((fmtOf b32).bias : ℤ) + 1)) (by omega)
    exact lt_of_lt_of_le (by positivity) (FloatFmt.le_rnd h3 h2)
  have hr1 : (fmtOf b32).rnd (1 / s) ≤ 2 ^ ((fmtOf b32).bias - 1) := FloatFmt.rnd_le (repr_two_pow b32 _) hle
  have h2 : (fmtOf b32).rne ((fmtOf b32).rnd (1 / s) * c) = .f ((fmtOf b32).rnd ((fmtOf b32).rnd (1 / s) * c)) := FloatFmt.rne_f hF.ok (by
    rw [abs_of_pos (by positivity)]; nlinarith)
  have hi := h.exp2.inf true
  simp only [if_true] at hi
  have h0 := rne_zero b32
  have hdiv : binIE (fmtOf b32) .div (.f 1) (.f s) = .f ((fmtOf b32).rnd (1 / s)) := by rw [← h1]; simp [binIE, divIE, hs0.ne']
  constructor
  · simp only [hr, hdiv, subIE_inf_f, mulIE_inf_pos _ hr0, mulIE_neg_inf _ hk, mulIE_inf_inf, Bool.not_bne_self, hi, binIE_mul, h2, mul_zero, h0]
  · simp only [hr, hdiv, subIE_f_inf, mulIE_inf_pos _ hr0, mulIE_neg_inf _ hk, mulIE_inf_inf, Bool.not_bne_self, hi, binIE_mul, h2, mul_zero, h0]

/-- **C88** `atan2(1, +∞)` is a NaN; it should be zero. -/
theorem C88_atan2_wrong (h : LibraryOk ext fx b32 P calls g u w) (lo hi : Dec) (hlo : lo.val = -hi.val) (hhi : |(hi.val : ℝ) - Real.tan (Real.pi / 8)| ≤ 1 / 10 ^ 16) :
    ∃ e, polynomialCode ext fx b32 .atan2 lo hi = .ok e ∧ (Gen.atan2 e.toR).apply (ieeeInterp (fmtOf b32) calls) g [.f 1, .inf false] = .nan := by
  obtain ⟨e, h1, h2⟩ := C88_atan2 h lo hi hlo hhi
  exact ⟨e, h1, h2 _ _ (.inf _) (.f _) (.inr (.inr (.inl ⟨_, rfl⟩)))⟩

end
end Verif

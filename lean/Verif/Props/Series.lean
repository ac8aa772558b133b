import Verif.Lemmas.Series

/-!
# Properties of the series loop and of the functions built on it

C28 (domains), C30 (termination), C31 (symmetry), C33 (quantiles), C34 (`round_ieee`).
-/

namespace Verif
open Bd

/-! ## C30 -/

/-- The closures of every series in `bdmath.rs`. -/
inductive SeriesClosure : {σ : Type} → Closure σ → Prop
  | sin : SeriesClosure sinTerm
  | cos : SeriesClosure cosTerm
  | exp : SeriesClosure expTerm
  | atan : SeriesClosure atanTerm
  | asin : SeriesClosure asinTerm
  | lnPlus : SeriesClosure lnPlusTerm
  | lnMinus : SeriesClosure lnMinusTerm
  | erf : SeriesClosure erfTerm

theorem SeriesClosure.alternates {σ : Type} {f : Closure σ} (h : SeriesClosure f) : Alternates f := by
  cases h
  · exact alternates_sin
  · exact alternates_cos
  · exact alternates_exp
  · exact alternates_atan
  · exact alternates_asin
  · exact alternates_lnPlus
  · exact alternates_lnMinus
  · exact alternates_erf

/-- **C30** The series loop, whatever the argument, digit count and captured state, never runs for more than 30003
turns: it is already decided with that much fuel, and more fuel changes nothing. -/
theorem C30_series_loop_stops {σ : Type} (f : Closure σ) (hf : SeriesClosure f) (x : Dec) (n : Int) (s : σ)
    (fuel : Nat) (hfuel : 30003 ≤ fuel) :
    maclaurinLoop x n f fuel s 0 Dec.zero Dec.one Dec.one ≠ .diverge ∧
    maclaurinLoop x n f fuel s 0 Dec.zero Dec.one Dec.one = maclaurinLoop x n f 30003 s 0 Dec.zero Dec.one Dec.one :=
  loop_stops x n f hf.alternates fuel 30003 s 0 _ _ _ (by omega) (by omega) (by omega) (by omega)

/-- **C30** So `sin`, `cos`, `exp` and `tan` always return or panic. -/
theorem C30_elementary_stop (x : Dec) (n : Int) :
    Bd.sin x n ≠ .diverge ∧ Bd.cos x n ≠ .diverge ∧ Bd.exp x n ≠ .diverge ∧ Bd.tan x n ≠ .diverge := by
  have hs := maclaurin_ne_diverge x n sinTerm alternates_sin ()
  have hc := maclaurin_ne_diverge x n cosTerm alternates_cos ()
  refine ⟨hs, hc, maclaurin_ne_diverge x n expTerm alternates_exp (), ?_⟩
  unfold Bd.tan
  change Bd.sin x n ≠ _ at hs
  change Bd.cos x n ≠ _ at hc
  cases h1 : Bd.sin x n with
  | diverge => exact absurd h1 hs
  | ok a =>
    cases h2 : Bd.cos x n with
    | diverge => exact absurd h2 hc
    | ok b => simpa using div_ne_diverge a b
    | _ => simp
  | _ => simp

example : SeriesClosure asinTerm := .asin

/-! ## C31 -/

/-- **C31** `sin(-x) = -sin(x)`, digit for digit, panics included. -/
theorem C31_sin_odd (x : Dec) (n : Int) : Bd.sin (-x) n = (do let r ← Bd.sin x n; pure (-r)) :=
  maclaurin_odd x n sinTerm () sinTerm_odd

/-- **C31** `cos(-x) = cos(x)`. -/
theorem C31_cos_even (x : Dec) (n : Int) : Bd.cos (-x) n = Bd.cos x n :=
  maclaurin_even x n cosTerm () cosTerm_even

/-- **C31** `tan(-x) = -tan(x)`. -/
theorem C31_tan_odd (x : Dec) (n : Int) : Bd.tan (-x) n = (do let r ← Bd.tan x n; pure (-r)) := by
  unfold Bd.tan
  rw [C31_sin_odd, C31_cos_even]
  cases Bd.sin x n with
  | ok a =>
    cases Bd.cos x n with
    | ok b => simpa using Dec.div_neg_left a b
    | _ => simp
  | _ => simp

theorem atanRec_odd (ext : BdExt) (n : Int) : ∀ (fuel : Nat) (x : Dec),
    atanRec ext n fuel (-x) = (do let r ← atanRec ext n fuel x; pure (-r)) := by
  intro fuel
  induction fuel with
  | zero => intros; rfl
  | succ fuel ih =>
    intro x
    rw [atanRec, atanRec, neg_mul_neg, show (-x).abs = x.abs by simp [Dec.abs, neg_def]]
    by_cases h : Dec.lt Dec.half x.abs = true
    · rw [if_pos h, if_pos h]
      cases Res.unwrapOpt (ext.sqrt (Dec.one + x * x)) with
      | ok r =>
        simp only [Res.ok_bind, Dec.div_neg_left]
        cases Dec.div x (Dec.one + r) with
        | ok y =>
          simp only [Res.ok_bind, Res.pure_eq, ih]
          cases atanRec ext n fuel y <;> simp [neg_mul]
        | _ => simp
      | _ => simp
    · rw [if_neg h, if_neg h]
      exact maclaurin_odd x n atanTerm () atanTerm_odd

/-- **C31** `atan(-x) = -atan(x)`. -/
theorem C31_atan_odd (ext : BdExt) (x : Dec) (n : Int) : Bd.atan ext (-x) n = (do let r ← Bd.atan ext x n; pure (-r)) :=
  atanRec_odd ext n ext.fuel x

theorem signum_neg (x : Dec) : (-x).signum = -x.signum := by
  unfold Dec.signum
  rcases lt_trichotomy x.int 0 with h | h | h
  · rw [if_pos (by simp [neg_def, h]), if_neg (by omega), if_neg (by omega)]; rfl
  · rw [if_neg (by simp [neg_def, h]), if_pos (by simp [neg_def, h]), if_neg (by omega), if_pos h]; rfl
  · rw [if_neg (by simp [neg_def]; omega), if_neg (by simp [neg_def]; omega), if_pos h]; rfl

/-- **C31** `asin(-x) = -asin(x)`. -/
theorem C31_asin_odd (ext : BdExt) (x : Dec) (n : Int) : Bd.asin ext (-x) n = (do let r ← Bd.asin ext x n; pure (-r)) := by
  unfold Bd.asin
  rw [neg_mul_neg, show (-x).abs = x.abs by simp [Dec.abs, neg_def]]
  by_cases h : Dec.lt Dec.half x.abs = true
  · rw [if_pos h, if_pos h, signum_neg]
    cases Bd.pi ext n with
    | ok p =>
      simp only [Res.ok_bind]
      cases Res.unwrapOpt (ext.sqrt (Dec.one - x * x)) with
      | ok r =>
        simp only [Res.ok_bind]
        cases Dec.div r x.abs with
        | ok y =>
          simp only [Res.ok_bind]
          cases Bd.atan ext y n <;> simp [mul_neg]
        | _ => simp
      | _ => simp
    | _ => simp
  · rw [if_neg h, if_neg h]
    exact maclaurin_odd x n asinTerm _ asinTerm_odd

/-- **C31** `erf(-x) = -erf(x)`. -/
theorem C31_erf_odd (ext : BdExt) (x : Dec) (n : Int) : Bd.erf ext (-x) n = (do let r ← Bd.erf ext x n; pure (-r)) := by
  unfold Bd.erf
  rw [neg_mul_neg]
  cases Bd.pi ext n with
  | ok p =>
    simp only [Res.ok_bind]
    cases Res.unwrapOpt (sqrt ext p n) with
    | ok r =>
      simp only [Res.ok_bind]
      cases Dec.div Dec.two r with
      | ok c =>
        simp only [Res.ok_bind]
        cases maclaurin (x * x) n erfTerm () <;> simp [mul_neg, neg_mul]
      | _ => simp
    | _ => simp
  | _ => simp

/-- The symmetry is not vacuous: `sin` does return (here 0.5 to 3 digits) on both signs. -/
example : Bd.sin ⟨5, 1⟩ 3 = .ok ⟨4794, 4⟩ ∧ Bd.sin ⟨-5, 1⟩ 3 = .ok ⟨-4794, 4⟩ := by decide +kernel

/-! ## C28 -/

/-- `ln` answers "no value" exactly on numbers that are not positive. -/
theorem C28_ln_domain (ext : BdExt) (x : Dec) (n : Int) : Bd.ln ext x n = .ok none ↔ x.val ≤ 0 := by
  unfold Bd.ln
  have hg : (x.isZero || x.isNegative) = true ↔ x.val ≤ 0 := by
    rw [Bool.or_eq_true, Dec.isZero_iff, Dec.isNegative_iff, le_iff_eq_or_lt]
  by_cases h : (x.isZero || x.isNegative) = true
  · rw [if_pos h]; simp [hg.1 h]
  · rw [if_neg h]
    refine ⟨fun h2 => ?_, fun h2 => absurd (hg.2 h2) h⟩
    exfalso
    split at h2 <;>
    · simp only [Res.bind_eq_ok] at h2
      obtain ⟨_, _, _, _, _, _, _, _, h2⟩ := h2
      cases h2

/-- **C28** `pow(x, y)` answers "no value" exactly when `x` is not positive. -/
theorem C28_pow_domain (ext : BdExt) (x y : Dec) (n : Int) : Bd.pow ext x y n = .ok none ↔ x.val ≤ 0 := by
  rw [← C28_ln_domain ext x n]
  unfold Bd.pow
  cases h : Bd.ln ext x n with
  | ok o =>
    cases o with
    | none => simp
    | some a =>
      simp only [Res.ok_bind]
      cases Bd.exp (y * a) n <;> simp
  | _ => simp

/-- **C28** When `log(x, b)` returns, it answers "no value" exactly when `x` or `b` is not positive. -/
theorem C28_log_domain (ext : BdExt) (x b : Dec) (n : Int) (o : Option Dec) (h : Bd.log ext x b n = .ok o) :
    o = none ↔ x.val ≤ 0 ∨ b.val ≤ 0 := by
  rw [← C28_ln_domain ext x n, ← C28_ln_domain ext b n]
  unfold Bd.log at h
  simp only [Res.bind_eq_ok] at h
  obtain ⟨lx, hx, lb, hb, h⟩ := h
  rw [hx, hb]
  cases lx <;> cases lb <;> simp_all
  rename_i a c
  cases hd : Dec.div a c <;> simp_all
  subst h; simp

/-- **C28** The values: `pow(x, y)` is `exp` of the exact product `y·ln x`, and `log(x, b)` is within a relative error
of `½·10^-99` of `ln x / ln b`, for the logarithms computed at the same digit count. -/
theorem C28_pow_log_values (ext : BdExt) (x y : Dec) (n : Int) :
    (∀ r, Bd.pow ext x y n = .ok (some r) → ∃ a z, Bd.ln ext x n = .ok (some a) ∧ z.val = y.val * a.val ∧ Bd.exp z n = .ok r) ∧
    (∀ r, Bd.log ext x y n = .ok (some r) → ∃ a b, Bd.ln ext x n = .ok (some a) ∧ Bd.ln ext y n = .ok (some b) ∧
      b.val ≠ 0 ∧ |r.val - a.val / b.val| ≤ 1 / 2 * 10 ^ (-99 : Int) * |a.val / b.val|) := by
  constructor
  · intro r h
    unfold Bd.pow at h
    simp only [Res.bind_eq_ok] at h
    obtain ⟨lx, hx, h⟩ := h
    cases lx with
    | none => simp at h
    | some a =>
      simp only [Res.bind_eq_ok] at h
      obtain ⟨r', hr, h⟩ := h
      cases h
      exact ⟨a, _, hx, by simp, hr⟩
  · intro r h
    unfold Bd.log at h
    simp only [Res.bind_eq_ok] at h
    obtain ⟨lx, hx, lb, hb, h⟩ := h
    cases lx with
    | none => simp at h
    | some a =>
      cases lb with
      | none => simp at h
      | some b =>
        simp only [Res.bind_eq_ok] at h
        obtain ⟨q, hq, h⟩ := h
        cases h
        have hb0 : b.val ≠ 0 := by
          intro h0; rw [(Dec.div_spec a b).1 h0] at hq; cases hq
        obtain ⟨q', hq', he⟩ := (Dec.div_spec a b).2 hb0
        rw [hq] at hq'; cases hq'
        exact ⟨a, b, hx, hb, hb0, he⟩

/-- An environment with some fuel. -/
def fuelExt : BdExt where
  sqrt := fun _ => none
  inverse := id
  toF32 := fun _ => none
  fromF32 := fun _ => none
  toF64 := fun _ => none
  fromF64 := fun _ => none
  fuel := 100

example : Bd.log fuelExt ⟨8, 0⟩ ⟨2, 0⟩ 4 ≠ .ok none ∧ Bd.pow fuelExt ⟨2, 0⟩ ⟨3, 0⟩ 4 = .ok (some ⟨800007, 5⟩) := by decide +kernel

/-! ## C33 -/

/-- `round(a.abs(), n)` is zero exactly when `|a|` is less than half a unit. -/
theorem round_abs_zero (a : Dec) (n : Int) (hn : 0 ≤ n) :
    (round a.abs n).isZero = true ↔ |a.val| < 1 / 2 * 10 ^ (-n) := by
  rw [Dec.isZero_iff, val_round hn, Dec.val_abs, rndAway, if_pos (abs_nonneg _)]
  have hp := Dec.zpow_pos' n
  rw [mul_eq_zero, or_iff_left (Dec.zpow_ne' _)]
  rw [show ((⌊|a.val| * 10 ^ n + 1 / 2⌋ : Int) : ℚ) = 0 ↔ ⌊|a.val| * 10 ^ n + 1 / 2⌋ = 0 by exact_mod_cast Iff.rfl,
    Int.floor_eq_zero_iff, Set.mem_Ico, zpow_neg]
  constructor
  · rintro ⟨_, h⟩
    rw [← div_eq_mul_inv, lt_div_iff₀ hp]; linarith
  · intro h
    rw [← div_eq_mul_inv, lt_div_iff₀ hp] at h
    refine ⟨by positivity, by linarith⟩

theorem qnormLoop_spec (ext : BdExt) (x mean sd : Dec) (n : Int) (hn : 0 ≤ n) : ∀ (fuel : Nat) (g0 g : Dec),
    qnormLoop ext x mean sd n fuel g0 = .ok g →
    ∃ p, pnorm ext g mean sd n = .ok p ∧ |p.val - x.val| < 1 / 2 * 10 ^ (-n) := by
  intro fuel
  induction fuel with
  | zero => intro g0 g h; cases h
  | succ fuel ih =>
    intro g0 g h
    rw [qnormLoop] at h
    simp only [Res.bind_eq_ok] at h
    obtain ⟨p, hp, h⟩ := h
    split at h
    · rename_i hz
      cases h
      refine ⟨p, hp, ?_⟩
      have := (round_abs_zero (p - x) n hn).1 hz
      simpa using this
    · simp only [Res.bind_eq_ok] at h
      obtain ⟨_, _, _, _, h⟩ := h
      exact ih _ _ h

/-- **C33** When `qnorm(p, mean, sd)` returns `q`, the computed `pnorm` at some point `g` is less than half a unit of the
last requested digit away from `p`, and `q` is `g` rounded. -/
theorem C33_qnorm_correct (ext : BdExt) (x mean sd : Dec) (n : Int) (hn : 0 ≤ n) (q : Dec)
    (h : Bd.qnorm ext x mean sd n = .ok (some q)) :
    ∃ g p, q = round g n ∧ pnorm ext g mean sd n = .ok p ∧ |p.val - x.val| < 1 / 2 * 10 ^ (-n) := by
  unfold Bd.qnorm at h
  simp only [Res.bind_eq_ok] at h
  obtain ⟨_, _, l, _, h⟩ := h
  cases l with
  | none => cases h
  | some _ =>
    simp only [Res.bind_eq_ok] at h
    obtain ⟨g, hg, h⟩ := h
    cases h
    obtain ⟨p, hp, he⟩ := qnormLoop_spec ext x mean sd n hn _ _ _ hg
    exact ⟨g, p, rfl, hp, he⟩

/-- The computed quotient has the sign of the exact one. -/
theorem div_nonpos_iff (a b q : Dec) (h : Dec.div a b = .ok q) : q.val ≤ 0 ↔ a.val / b.val ≤ 0 := by
  have hb0 : b.val ≠ 0 := by
    intro h0; rw [(Dec.div_spec a b).1 h0] at h; cases h
  obtain ⟨q', hq', he⟩ := (Dec.div_spec a b).2 hb0
  rw [h] at hq'; cases hq'
  have hs : Dec.divEps < 1 := by norm_num [Dec.divEps]
  have hs0 : 0 < Dec.divEps := by norm_num [Dec.divEps]
  generalize a.val / b.val = z at he ⊢
  rcases lt_trichotomy z 0 with hz | hz | hz
  · rw [abs_of_neg hz] at he
    have := (abs_le.1 he).2
    constructor
    · intro; exact hz.le
    · intro; nlinarith
  · subst hz; simp at he; simp [he]
  · rw [abs_of_pos hz] at he
    have := (abs_le.1 he).1
    constructor
    · intro; nlinarith
    · intro; linarith

/-- **C33** `qnorm` answers "no value" exactly when `p/(1-p)` is not positive; for `p = 1` it panics. -/
theorem C33_qnorm_domain (ext : BdExt) (x mean sd : Dec) (n : Int) :
    (x.val = 1 → Bd.qnorm ext x mean sd n = .panic) ∧
    (x.val ≠ 1 → (Bd.qnorm ext x mean sd n = .ok none ↔ x.val / (1 - x.val) ≤ 0)) := by
  constructor
  · intro h
    unfold Bd.qnorm
    rw [(Dec.div_spec x (Dec.one - x)).1 (by simp [h])]; rfl
  · intro h
    obtain ⟨q, hq, _⟩ := (Dec.div_spec x (Dec.one - x)).2 (by simpa [sub_eq_zero] using fun h2 => h h2.symm)
    have hd := div_nonpos_iff x (Dec.one - x) q hq
    rw [Dec.val_sub, Dec.val_one] at hd
    rw [← hd, ← C28_ln_domain ext q n]
    unfold Bd.qnorm
    rw [hq]
    simp only [Res.ok_bind]
    cases h : Bd.ln ext q n with
    | ok o =>
      cases o with
      | none => simp
      | some a =>
        simp only [Res.ok_bind]
        cases qnormLoop ext x mean sd n ext.fuel Dec.zeroF64 <;> simp
    | _ => simp

/-- An environment whose square roots are good enough to run `qnorm` at two digits: √2 and √π. -/
def rootExt : BdExt where
  sqrt := fun d => if d = Dec.two then some ⟨14142, 4⟩ else if d = ⟨314, 2⟩ then some ⟨17720, 4⟩ else some ⟨3990, 4⟩
  inverse := id
  toF32 := fun _ => none
  fromF32 := fun _ => none
  toF64 := fun _ => none
  fromF64 := fun _ => none
  fuel := 100

example : Bd.qnorm rootExt ⟨84, 2⟩ Dec.zero Dec.one 2 = .ok (some ⟨99, 2⟩) := by decide +kernel
example : Bd.qnorm rootExt ⟨2, 0⟩ Dec.zero Dec.one 2 = .ok none := by decide +kernel

/-! ## C34 -/

/-- `to_i32` is truncation toward zero. -/
theorem toI32_eq_iff (b : Dec) (k : Int) (hk : 0 < k) : toI32 b = k ↔ (k : ℚ) ≤ b.val ∧ b.val < k + 1 := by
  unfold toI32 Dec.withScale
  by_cases h0 : b.int = 0
  · have : b.val = 0 := (Dec.val_eq_zero b).2 h0
    rw [if_pos h0, this]
    constructor
    · intro h; simp at h; omega
    · rintro ⟨h, _⟩
      have : k ≤ 0 := by exact_mod_cast h
      omega
  · rw [if_neg h0]
    by_cases h1 : b.scale < 0
    · rw [if_pos h1]
      have hv : b.val = ((b.int * Dec.tenPow (0 - b.scale) : Int) : ℚ) := by
        rw [Int.cast_mul, Dec.tenPow_cast (by omega), Dec.val]; simp
      rw [hv]
      show b.int * Dec.tenPow (0 - b.scale) = k ↔ _
      constructor
      · intro h; rw [h]; constructor <;> linarith
      · rintro ⟨h2, h3⟩
        have h2 : k ≤ b.int * Dec.tenPow (0 - b.scale) := by exact_mod_cast h2
        have h3 : b.int * Dec.tenPow (0 - b.scale) < k + 1 := by exact_mod_cast h3
        omega
    · rw [if_neg h1]
      have hv : b.val = (b.int : ℚ) / ((Dec.tenPow (b.scale - 0) : Int) : ℚ) := by
        rw [Dec.tenPow_cast (by omega), Dec.val, zpow_neg]; simp [div_eq_mul_inv]
      have hp := Dec.tenPow_pos (b.scale - 0)
      have hp' : (0 : ℚ) < ((Dec.tenPow (b.scale - 0) : Int) : ℚ) := by exact_mod_cast hp
      have key : b.int.tdiv (Dec.tenPow (b.scale - 0)) = k ↔ (k : ℚ) ≤ b.val ∧ b.val < k + 1 := by
        rw [hv, le_div_iff₀ hp', div_lt_iff₀ hp']
        generalize Dec.tenPow (b.scale - 0) = t at *
        have e : ((k : ℚ) * t ≤ b.int ∧ (b.int : ℚ) < (k + 1) * t) ↔ (k * t ≤ b.int ∧ b.int < (k + 1) * t) := by
          constructor
          · rintro ⟨a, c⟩; exact ⟨by exact_mod_cast a, by exact_mod_cast c⟩
          · rintro ⟨a, c⟩; exact ⟨by exact_mod_cast a, by exact_mod_cast c⟩
        rw [e]
        rcases le_or_gt 0 b.int with hb | hb
        · rw [Int.tdiv_eq_ediv_of_nonneg hb]
          constructor
          · rintro rfl
            have := Int.mul_ediv_add_emod b.int t
            have h3 := Int.emod_nonneg b.int hp.ne'
            have h4 := Int.emod_lt_of_pos b.int hp
            constructor <;> nlinarith
          · rintro ⟨a, c⟩
            exact Int.ediv_eq_iff_of_pos hp |>.2 ⟨by linarith, by linarith⟩
        · constructor
          · intro h
            have h5 : 0 ≤ (-b.int).tdiv t := Int.tdiv_nonneg (by omega) hp.le
            rw [Int.neg_tdiv] at h5
            omega
          · rintro ⟨a, _⟩
            nlinarith [mul_pos hk hp]
      by_cases h2 : 0 < b.scale
      · rw [if_pos h2]; exact key
      · have hz : b.scale = 0 := by omega
        rw [if_neg h2]
        rw [hz] at key
        simpa [Dec.tenPow] using key

/-- **C34** With `bits` 32 or 64 the argument goes through a float of that width; a failing conversion is `Overflow`. -/
theorem C34_accepts (ext : BdExt) (x bits : Dec) (n : Int) :
    (bits.val = 32 → Bd.roundIeee ext x bits n =
      match ext.toF32 x with
      | none => .err .overflow
      | some f => match ext.fromF32 f with | none => .err .overflow | some y => .ok y) ∧
    (bits.val = 64 → Bd.roundIeee ext x bits n =
      match ext.toF64 x with
      | none => .err .overflow
      | some f => match ext.fromF64 f with | none => .err .overflow | some y => .ok y) := by
  constructor
  · intro h
    have h32 : toI32 bits = 32 := (toI32_eq_iff bits 32 (by norm_num)).2 (by rw [h]; norm_num)
    unfold Bd.roundIeee
    rw [if_pos h32]
    cases ext.toF32 x with
    | none => rfl
    | some f =>
      simp only [orOverflow, Res.okOr, Res.ok_bind]
      cases ext.fromF32 f <;> rfl
  · intro h
    have h32 : ¬ toI32 bits = 32 := by
      rw [toI32_eq_iff bits 32 (by norm_num), h]; norm_num
    have h64 : toI32 bits = 64 := (toI32_eq_iff bits 64 (by norm_num)).2 (by rw [h]; norm_num)
    unfold Bd.roundIeee
    rw [if_neg h32, if_pos h64]
    cases ext.toF64 x with
    | none => rfl
    | some f =>
      simp only [orOverflow, Res.okOr, Res.ok_bind]
      cases ext.fromF64 f <;> rfl

/-- **C34** (integers only.)  `bits` whose integer part is neither 32 nor 64 is refused.

Full claim: every `bits` other than 32 and 64 is refused; false, the fraction of `bits` is ignored, see
`C34_fraction_ignored`. -/
theorem C34_rejects_partial (ext : BdExt) (x bits : Dec) (n : Int)
    (h32 : ¬ (32 ≤ bits.val ∧ bits.val < 33)) (h64 : ¬ (64 ≤ bits.val ∧ bits.val < 65)) :
    Bd.roundIeee ext x bits n = .err .expected32or64bits := by
  unfold Bd.roundIeee
  rw [if_neg, if_neg]
  · rw [toI32_eq_iff bits 64 (by norm_num)]
    intro h; apply h64; refine ⟨by exact_mod_cast h.1, ?_⟩
    have := h.2; norm_num at this; exact this
  · rw [toI32_eq_iff bits 32 (by norm_num)]
    intro h; apply h32; refine ⟨by exact_mod_cast h.1, ?_⟩
    have := h.2; norm_num at this; exact this

/-- **C34** as stated is false: 32.5 is accepted and treated as 32. -/
theorem C34_fraction_ignored (ext : BdExt) (x : Dec) (n : Int) :
    Bd.roundIeee ext x ⟨325, 1⟩ n = Bd.roundIeee ext x ⟨32, 0⟩ n := by
  unfold Bd.roundIeee
  rw [if_pos (by decide), if_pos (by decide)]

example : ¬ (32 ≤ (Dec.ofInt 16).val ∧ (Dec.ofInt 16).val < 33) := by norm_num
example : (⟨320, 1⟩ : Dec).val = 32 := by norm_num [Dec.val]

end Verif

import Verif.Props.IeeeArea

/-! # C93: the generated uniform random numbers in float arithmetic -/

namespace Verif
open Gen RExpr

section
variable {calls : String → List RV → RV} {g : Name → RV}

theorem splitmixBits_lt (index : ℤ) : splitmixBits index < 2 ^ 52 := Nat.mod_lt _ (by norm_num)

theorem fraction_le (index : ℤ) : (splitmixBits index : ℝ) / 2 ^ 52 ≤ 1 - 1 / 2 ^ 52 := by
  have h : (splitmixBits index : ℝ) + 1 ≤ 2 ^ 52 := by exact_mod_cast splitmixBits_lt index
  generalize (splitmixBits index : ℝ) = n at h
  rw [div_le_iff₀ (by positivity), sub_mul, one_mul, one_div_mul_cancel (by positivity)]
  linarith

/-- A fraction of 52 bits is a float. -/
theorem repr_fraction {n : ℕ} (h : n ≤ 2 ^ 53) : FloatFmt.f64.Repr ((n : ℝ) / 2 ^ 52) := by
  refine ⟨n, -52, by rw [zpow_neg, div_eq_mul_inv]; norm_cast, ?_, by decide⟩
  rw [Nat.abs_cast]; exact_mod_cast h

/-- **C93** In float arithmetic 64-bit `runif(index, min, max)` is `u * (max - min) + min`, three rounded operations on the same exact fraction `u` of 52 bits as in C59. -/
theorem C93_runif_value (hg : BitConsts .f64 g) (index : ℤ) (lo hi : RV) (h0 : 0 ≤ index) (h64 : index < 2 ^ 64) :
    Gen.runif.apply (ieeeInterp .f64 calls) g [.i index, lo, hi] =
      binIE .f64 .add (binIE .f64 .mul (.f ((splitmixBits index : ℝ) / 2 ^ 52)) (binIE .f64 .sub hi lo)) lo := by
  have int1 : ∀ env, (int "1").denote (ieeeInterp .f64 calls) env = .i 1 := fun env => denoteIE_int _ _ _ rfl
  have int30 : ∀ env, (int "30").denote (ieeeInterp .f64 calls) env = .i 30 := fun env => denoteIE_int _ _ _ rfl
  have int27 : ∀ env, (int "27").denote (ieeeInterp .f64 calls) env = .i 27 := fun env => denoteIE_int _ _ _ rfl
  have int31 : ∀ env, (int "31").denote (ieeeInterp .f64 calls) env = .i 31 := fun env => denoteIE_int _ _ _ rfl
  have int2 : ∀ env, (int "2").denote (ieeeInterp .f64 calls) env = .i 2 := fun env => denoteIE_int _ _ _ rfl
  have intA : ∀ env, (int "11400714819323198485").denote (ieeeInterp .f64 calls) env = .i 11400714819323198485 := fun env => denoteIE_int _ _ _ rfl
  have intB : ∀ env, (int "13787848793156543929").denote (ieeeInterp .f64 calls) env = .i 13787848793156543929 := fun env => denoteIE_int _ _ _ rfl
  have intC : ∀ env, (int "10723151780598845931").denote (ieeeInterp .f64 calls) env = .i 10723151780598845931 := fun env => denoteIE_int _ _ _ rfl
  have num1 : ∀ env, (num "1.0").denote (ieeeInterp .f64 calls) env = .f 1 := fun env => numIE_1 (FloatFmt.wide_fmtOf false)
  have hw : FloatFmt.f64.width = 64 := rfl
  have hone : g ["ONE_BITS"] = .i ((1023 * 2 ^ 52 : ℕ) : ℤ) := hg.one_bits
  have hu64 : ∀ n : ℤ, castIE .f64 ["u64"] (.i n) = .i (n % 2 ^ 64) := fun n => rfl
  have hbin : ∀ op (x y : ℤ), binIE .f64 op (.i x) (.i y) = binRV op (.i x) (.i y) := fun op x y => by cases op <;> rfl
  have hmul : ∀ x y : ℤ, methIE .f64 "wrapping_mul" (.i x) [.i y] = .i (x * y % 2 ^ 64) := fun x y => rfl
  simp only [Gen.runif, Gen.xorShift, RFn.apply, bindParams]
  simp only [denoteBlock_letT, denoteBlock_expr, denote_v, denote_method, denoteArgs_nil, denoteArgs_cons, denote_sub, denote_add, denote_mul, denote_paren,
    denote_as, denote_binary, denote_fromBits, envSet_one, num1, ieee_bin, ieee_meth, ieee_cast, String.reduceEq, if_true, if_false,
    int30, int27, int31, int2, intA, intB, intC, int1, hu64, hbin, hmul, castIE_uty_i, binRV, hone, hw]
  rw [Int.emod_eq_of_lt h0 h64]
  generalize hz3 : Int.xor _ _ = z3
  have hz3' : splitmix64 index = z3 := hz3
  have hz0 : 0 ≤ z3 % 2 ^ 64 / 2 ^ (2 : ℤ).toNat :=
    Int.ediv_nonneg (Int.emod_nonneg _ (by norm_num)) (by positivity)
  have hz1 : z3 % 2 ^ 64 / 2 ^ (2 : ℤ).toNat < 2 ^ 62 := by
    have : z3 % 2 ^ 64 < 2 ^ 64 := Int.emod_lt_of_pos _ (by norm_num)
    have e : (2 : ℤ) ^ (2 : ℤ).toNat = 4 := rfl
    rw [e]; omega
  obtain ⟨z, hz⟩ := Int.eq_ofNat_of_zero_le hz0
  rw [hz] at hz1 ⊢
  have hzlt : z < 2 ^ 62 := by exact_mod_cast hz1
  have hf : z % 2 ^ 52 < 2 ^ 52 := Nat.mod_lt _ (by norm_num)
  have hor : Int.lor (z : ℤ) ((1023 * 2 ^ 52 : ℕ) : ℤ) = ((1023 * 2 ^ 52 + z % 2 ^ 52 : ℕ) : ℤ) := by
    rw [← or_one_bits z hzlt]; rfl
  have hdec : FloatFmt.f64.decode (1023 * 2 ^ 52 + z % 2 ^ 52) = .f (1 + (z % 2 ^ 52 : ℕ) / 2 ^ 52) := by
    have := FloatFmt.decode_normal (F := .f64) (E := 1023) (f := z % 2 ^ 52) (by norm_num) (by norm_num [FloatFmt.f64]) hf
    rw [show FloatFmt.f64.mant = 52 from rfl, show FloatFmt.f64.bias = 1023 from rfl] at this
    rw [this]; simp
  rw [hor, ieee_fromBits .f64 calls _ (by positivity) (by rw [hw]; exact_mod_cast (by omega : 1023 * 2 ^ 52 + z % 2 ^ 52 < 2 ^ 64)),
    Int.toNat_natCast, hdec]
  have hbits : splitmixBits index = z % 2 ^ 52 := by
    rw [splitmixBits, hz3', show (4 : ℤ) = 2 ^ (2 : ℤ).toNat from rfl, hz]; rfl
  rw [hbits, binIE_sub, show (1 : ℝ) + ((z % 2 ^ 52 : ℕ) : ℝ) / 2 ^ 52 - 1 = ((z % 2 ^ 52 : ℕ) : ℝ) / 2 ^ 52 by ring]
  rw [FloatFmt.rne_repr (repr_fraction (by omega))]
  rw [abs_of_nonneg (by positivity), div_lt_iff₀ (by positivity)]
  have : ((z % 2 ^ 52 : ℕ) : ℝ) < 2 ^ 52 := by exact_mod_cast hf
  calc ((z % 2 ^ 52 : ℕ) : ℝ) < 1 * 2 ^ 52 := by rw [one_mul]; exact this
    _ ≤ _ := mul_le_mul_of_nonneg_right (one_le_pow₀ (by norm_num)) (by positivity)

/-- A fraction below one of the rounded length of an interval is below the length, in the normal range. -/
theorem scaled_lt {D u : ℝ} (hu1 : u ≤ 1 - 1 / 2 ^ 52) (hs : (2 : ℝ) ^ (-1022 : ℤ) ≤ D) :
    FloatFmt.f64.rnd (u * FloatFmt.f64.rnd D) < D := by
  have hD : 0 < D := lt_of_lt_of_le (by positivity) hs
  have hd0 : 0 ≤ FloatFmt.f64.rnd D := FloatFmt.le_rnd FloatFmt.repr_zero hD.le
  have hlog : (-1022 : ℤ) ≤ Int.log 2 D := by
    rw [← Int.zpow_le_iff_le_log (by norm_num) hD]; exact_mod_cast hs
  obtain ⟨E, hE⟩ : ∃ E, E = Int.log 2 D := ⟨_, rfl⟩
  have hq : FloatFmt.f64.lastPlace D = E - 52 := by
    unfold FloatFmt.lastPlace
    rw [abs_of_pos hD, hE, max_eq_left (by exact hlog)]; rfl
  have h1 : (2 : ℝ) ^ E ≤ D := by
    have := Int.zpow_log_le_self (b := 2) (by norm_num) hD
    rw [← hE] at this; exact_mod_cast this
  have hp : FloatFmt.f64.Repr ((2 : ℝ) ^ E) := FloatFmt.repr_zpow (by show 1 - ((1023 : ℕ) : ℤ) - ((52 : ℕ) : ℤ) ≤ E; push_cast; omega)
  have h2 : (2 : ℝ) ^ E ≤ FloatFmt.f64.rnd D := FloatFmt.le_rnd hp h1
  have h3 := FloatFmt.rnd_near (F := .f64) D
  rw [hq] at h3
  have h4 := (abs_le.1 h3).2
  have hqE : (2 : ℝ) ^ (E - 52) = 2 ^ E / 2 ^ 52 := by rw [zpow_sub₀ (by norm_num)]; norm_cast
  have hpos : (0 : ℝ) < 2 ^ (E - 52) := by positivity
  -- the float below the rounded length
  have hr : FloatFmt.f64.Repr (FloatFmt.f64.rnd D - 2 ^ (E - 52)) := by
    refine FloatFmt.repr_of_multiple (k := roundEven (D / 2 ^ (E - 52)) - 1) (e := E - 52) ?_ (by show 1 - ((1023 : ℕ) : ℤ) - ((52 : ℕ) : ℤ) ≤ E - 52; push_cast; omega) ?_
    · unfold FloatFmt.rnd; rw [hq]; push_cast; ring
    · have h5 := FloatFmt.abs_lt_lastPlace (F := .f64) (x := D)
      rw [hq, abs_of_pos hD] at h5
      have h6 : FloatFmt.f64.Repr ((2 : ℝ) ^ (((FloatFmt.f64.mant : ℕ) : ℤ) + 1 + (E - 52))) := FloatFmt.repr_zpow (by
        show 1 - ((1023 : ℕ) : ℤ) - ((52 : ℕ) : ℤ) ≤ ((52 : ℕ) : ℤ) + 1 + (E - 52); push_cast; omega)
      have h7 := FloatFmt.rnd_le h6 h5.le
      rw [abs_of_nonneg (by rw [hqE]; nlinarith [show (0 : ℝ) < 2 ^ E by positivity])]
      linarith
  refine lt_of_le_of_lt (FloatFmt.rnd_le hr ?_) (by linarith)
  rw [hqE]
  have : u * FloatFmt.f64.rnd D ≤ (1 - 1 / 2 ^ 52) * FloatFmt.f64.rnd D := mul_le_mul_of_nonneg_right hu1 hd0
  linarith

/-- A fraction below one of the rounded length of an interval does not exceed the length. -/
theorem scaled_le {lo hi u : ℝ} (hl : FloatFmt.f64.Repr lo) (hh : FloatFmt.f64.Repr hi) (h : lo < hi) (hu1 : u ≤ 1 - 1 / 2 ^ 52) :
    FloatFmt.f64.rnd (u * FloatFmt.f64.rnd (hi - lo)) ≤ hi - lo := by
  have hD : 0 < hi - lo := by linarith
  rcases lt_or_ge (hi - lo) ((2 : ℝ) ^ (-1022 : ℤ)) with hs | hs
  · -- the difference of two floats that is below the normal numbers is exact
    have hr : FloatFmt.f64.Repr (hi - lo) := by
      obtain ⟨m, e, rfl, -, he⟩ := hl
      obtain ⟨m', e', rfl, -, he'⟩ := hh
      have he2 : (-1074 : ℤ) ≤ e := he
      have he2' : (-1074 : ℤ) ≤ e' := he'
      obtain ⟨a, rfl⟩ : ∃ a : ℕ, e = -1074 + a := ⟨(e + 1074).toNat, by omega⟩
      obtain ⟨b, rfl⟩ : ∃ b : ℕ, e' = -1074 + b := ⟨(e' + 1074).toNat, by omega⟩
      refine FloatFmt.repr_of_multiple (k := m' * 2 ^ b - m * 2 ^ a) (e := -1074) ?_ (by decide) ?_
      · rw [zpow_add₀ (by norm_num), zpow_add₀ (by norm_num), zpow_natCast, zpow_natCast]; push_cast; ring
      · rw [abs_of_pos hD]
        exact hs.le.trans (zpow_le_zpow_right₀ (by norm_num) (by decide))
    rw [FloatFmt.rnd_of_repr hr]
    exact FloatFmt.rnd_le hr (by nlinarith)
  · exact (scaled_lt hu1 hs).le

/-- The value for finite arguments whose difference does not overflow. -/
theorem runif_finite (hg : BitConsts .f64 g) (index : ℤ) {lo hi : ℝ} (h0 : 0 ≤ index) (h64 : index < 2 ^ 64) (hl : FloatFmt.f64.Repr lo) (hh : FloatFmt.f64.Repr hi) (h : lo < hi)
    (hb : |lo| ≤ 2 ^ 1022) (hb' : |hi| ≤ 2 ^ 1022) :
    Gen.runif.apply (ieeeInterp .f64 calls) g [.i index, .f lo, .f hi] =
      .f (FloatFmt.f64.rnd (FloatFmt.f64.rnd ((splitmixBits index : ℝ) / 2 ^ 52 * FloatFmt.f64.rnd (hi - lo)) + lo)) := by
  have hok : FloatFmt.f64.Ok := (FloatFmt.wide_fmtOf false).ok
  have hu1 := fraction_le index
  have hu0 : 0 ≤ (splitmixBits index : ℝ) / 2 ^ 52 := by positivity
  generalize hu : (splitmixBits index : ℝ) / 2 ^ 52 = u at hu0 hu1
  have hD : 0 < hi - lo := by linarith
  have e1 := abs_le.1 hb
  have e2 := abs_le.1 hb'
  have two : (2 : ℝ) ^ FloatFmt.f64.bias = 2 ^ 1022 + 2 ^ 1022 := by
    rw [show FloatFmt.f64.bias = 1022 + 1 from rfl, pow_succ, mul_two]
  have hd0 : 0 ≤ FloatFmt.f64.rnd (hi - lo) := FloatFmt.le_rnd FloatFmt.repr_zero hD.le
  have hp := scaled_le hl hh h hu1
  have hp0 : 0 ≤ FloatFmt.f64.rnd (u * FloatFmt.f64.rnd (hi - lo)) := FloatFmt.le_rnd FloatFmt.repr_zero (by positivity)
  have hbd : FloatFmt.f64.Repr ((2 : ℝ) ^ FloatFmt.f64.bias) := by
    have := FloatFmt.repr_zpow (F := .f64) (e := FloatFmt.f64.bias) (by decide)
    rwa [zpow_natCast] at this
  have hdb : FloatFmt.f64.rnd (hi - lo) ≤ 2 ^ FloatFmt.f64.bias := FloatFmt.rnd_le hbd (by rw [two]; linarith)
  rw [C93_runif_value hg index _ _ h0 h64, hu, binIE_sub, FloatFmt.rne_f hok (by rw [abs_of_pos hD, two]; linarith), binIE_mul,
    FloatFmt.rne_f hok (by rw [abs_of_nonneg (by positivity)]; have : u * FloatFmt.f64.rnd (hi - lo) ≤ FloatFmt.f64.rnd (hi - lo) := by nlinarith
                           linarith), binIE_add, FloatFmt.rne_f hok]
  have : (0 : ℝ) < 2 ^ 1022 := by positivity
  rw [two, abs_le]
  generalize (2 : ℝ) ^ 1022 = B at *
  constructor <;> linarith

/-- **C93** In float arithmetic the result lies between `min` and `max`, for every index and all finite floats `min < max` up to `2 ^ 1022`. -/
theorem C93_range (hg : BitConsts .f64 g) (index : ℤ) {lo hi : ℝ} (h0 : 0 ≤ index) (h64 : index < 2 ^ 64) (hl : FloatFmt.f64.Repr lo) (hh : FloatFmt.f64.Repr hi) (h : lo < hi)
    (hb : |lo| ≤ 2 ^ 1022) (hb' : |hi| ≤ 2 ^ 1022) :
    ∃ y, Gen.runif.apply (ieeeInterp .f64 calls) g [.i index, .f lo, .f hi] = .f y ∧ lo ≤ y ∧ y ≤ hi := by
  have hu1 := fraction_le index
  refine ⟨_, runif_finite hg index h0 h64 hl hh h hb hb', FloatFmt.le_rnd hl ?_, FloatFmt.rnd_le hh ?_⟩
  · have : 0 ≤ FloatFmt.f64.rnd ((splitmixBits index : ℝ) / 2 ^ 52 * FloatFmt.f64.rnd (hi - lo)) :=
      FloatFmt.le_rnd FloatFmt.repr_zero (mul_nonneg (by positivity) (FloatFmt.le_rnd FloatFmt.repr_zero (by linarith)))
    linarith
  · linarith [scaled_le hl hh h hu1]

/-- **C93** From zero on, `max` itself is not reached. -/
theorem C93_from_zero (hg : BitConsts .f64 g) (index : ℤ) {hi : ℝ} (h0 : 0 ≤ index) (h64 : index < 2 ^ 64) (hh : FloatFmt.f64.Repr hi)
    (hb' : |hi| ≤ 2 ^ 1022) (ht : FloatFmt.f64.tiny ≤ hi) :
    ∃ y, Gen.runif.apply (ieeeInterp .f64 calls) g [.i index, .f 0, .f hi] = .f y ∧ 0 ≤ y ∧ y < hi := by
  have hu1 := fraction_le index
  refine ⟨_, runif_finite hg index h0 h64 FloatFmt.repr_zero hh (lt_of_lt_of_le FloatFmt.tiny_pos ht) (by rw [abs_zero]; positivity) hb', FloatFmt.le_rnd FloatFmt.repr_zero ?_, ?_⟩
  · rw [add_zero]
    exact FloatFmt.le_rnd FloatFmt.repr_zero (mul_nonneg (by positivity) (FloatFmt.le_rnd FloatFmt.repr_zero (by linarith [FloatFmt.tiny_pos (F := .f64)])))
  · rw [add_zero, sub_zero, FloatFmt.rnd_of_repr hh, FloatFmt.rnd_of_repr (FloatFmt.rnd_repr _)]
    have h1 := scaled_lt hu1 (show (2 : ℝ) ^ (-1022 : ℤ) ≤ hi from ht)
    rwa [FloatFmt.rnd_of_repr hh] at h1

/-- **C93** is false with `max` excluded: `runif(1702374924257397, 2.0, 3.0)` is 3. -/
theorem C93_max_reached (hg : BitConsts .f64 g) :
    Gen.runif.apply (ieeeInterp .f64 calls) g [.i 1702374924257397, .f 2, .f 3] = .f 3 := by
  have hr : ∀ k : ℤ, |k| ≤ 2 ^ 53 → FloatFmt.f64.Repr (k : ℝ) := fun k hk => FloatFmt.repr_int (FloatFmt.wide_fmtOf false).ok hk
  have r1 : FloatFmt.f64.Repr 1 := by exact_mod_cast hr 1 (by norm_num)
  have r2 : FloatFmt.f64.Repr 2 := by exact_mod_cast hr 2 (by norm_num)
  have r3 : FloatFmt.f64.Repr 3 := by exact_mod_cast hr 3 (by norm_num)
  have hs : splitmixBits 1702374924257397 = 2 ^ 52 - 1 := by decide +kernel
  have big : (4 : ℝ) ≤ 2 ^ 1022 := by
    calc (4 : ℝ) = 2 ^ 2 := by norm_num
      _ ≤ 2 ^ 1022 := pow_le_pow_right₀ (by norm_num) (by norm_num)
  rw [runif_finite hg _ (by norm_num) (by norm_num) r2 r3 (by norm_num) (by rw [abs_of_pos (by norm_num)]; exact le_trans (by norm_num) big) (by rw [abs_of_pos (by norm_num)]; exact le_trans (by norm_num) big),
    hs, show (3 : ℝ) - 2 = 1 by norm_num, FloatFmt.rnd_of_repr r1, mul_one, FloatFmt.rnd_of_repr (repr_fraction (by norm_num))]
  congr 1
  have hx : (((2 ^ 52 - 1 : ℕ) : ℝ)) / 2 ^ 52 + 2 = 3 - 1 / 2 ^ 52 := by norm_num
  rw [hx]
  have hlp : FloatFmt.f64.lastPlace (3 - 1 / 2 ^ 52) = -51 := by
    have hl : Int.log 2 |(3 : ℝ) - 1 / 2 ^ 52| = 1 := by
      have h1 : (1 : ℤ) ≤ Int.log 2 |(3 : ℝ) - 1 / 2 ^ 52| := by
        rw [← Int.zpow_le_iff_le_log (by norm_num) (by rw [abs_of_pos] <;> norm_num), abs_of_pos (by norm_num)]; norm_num
      have h2 : Int.log 2 |(3 : ℝ) - 1 / 2 ^ 52| < 2 := by
        rw [← Int.lt_zpow_iff_log_lt (by norm_num) (by rw [abs_of_pos] <;> norm_num), abs_of_pos (by norm_num)]; norm_num
      omega
    unfold FloatFmt.lastPlace
    rw [hl]; rfl
  unfold FloatFmt.rnd
  rw [hlp]
  have ht : ((3 : ℝ) - 1 / 2 ^ 52) / 2 ^ (-51 : ℤ) = 6755399441055743 + 1 / 2 := by norm_num
  have hfl : ⌊(6755399441055743 : ℝ) + 1 / 2⌋ = 6755399441055743 := by rw [Int.floor_eq_iff]; norm_num
  rw [ht]
  unfold roundEven
  rw [hfl]
  norm_num

/-- **C93** If `max - min` overflows, the result is infinite, or NaN where the fraction is zero. -/
theorem C93_overflow (hg : BitConsts .f64 g) (index : ℤ) {lo hi : ℝ} (h0 : 0 ≤ index) (h64 : index < 2 ^ 64) (h : 2 ^ 1024 ≤ hi - lo) :
    Gen.runif.apply (ieeeInterp .f64 calls) g [.i index, .f lo, .f hi] = if splitmixBits index = 0 then .nan else .inf false := by
  have hinf : FloatFmt.f64.rne (hi - lo) = .inf false := rne_over (b32 := false) h
  rw [C93_runif_value hg index _ _ h0 h64, binIE_sub, hinf]
  split_ifs with hz
  · rw [hz]
    simp [binIE, mulIE, addIE]
  · have hp : (0 : ℝ) < (splitmixBits index : ℝ) / 2 ^ 52 := by
      have : 0 < splitmixBits index := Nat.pos_of_ne_zero hz
      positivity
    generalize (splitmixBits index : ℝ) / 2 ^ 52 = u at hp
    simp [binIE, mulIE, addIE, hp.ne', not_lt.2 hp.le]

example : splitmixBits 486607201004552 = 0 ∧ splitmixBits 0 ≠ 0 := by decide +kernel

example : ∃ y, Gen.runif.apply (ieeeInterp .f64 fun _ _ => .junk) (demoBits .f64) [.i 12345, .f (-3), .f 4] = .f y ∧ -3 ≤ y ∧ y ≤ 4 := by
  have hr : ∀ k : ℤ, |k| ≤ 2 ^ 53 → FloatFmt.f64.Repr (k : ℝ) := fun k hk => FloatFmt.repr_int (FloatFmt.wide_fmtOf false).ok hk
  have big : (4 : ℝ) ≤ 2 ^ 1022 := by
    calc (4 : ℝ) = 2 ^ 2 := by norm_num
      _ ≤ 2 ^ 1022 := pow_le_pow_right₀ (by norm_num) (by norm_num)
  exact C93_range (demo_bits _) _ (by norm_num) (by norm_num) (by exact_mod_cast hr (-3) (by norm_num)) (by exact_mod_cast hr 4 (by norm_num)) (by norm_num)
    (le_trans (by norm_num) big) (le_trans (by norm_num) big)

end
end Verif

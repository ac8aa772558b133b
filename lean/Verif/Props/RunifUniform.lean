import Verif.Props.TestRunif
import Mathlib.Data.Nat.Bitwise
import Mathlib.Data.Set.Card

/-!
# C106: over all indices `runif` takes every value equally often

Every step of the generated code is invertible on 64-bit words: the odd multipliers, and the exclusive or with a shifted copy.  So the words are a permutation
of the indices, and each of the `2⁵²` fractions is made from `2¹²` words.
-/

namespace Verif
open Gen RExpr RunifCount


/-- The exclusive or with a shifted copy can be undone, from the top bit down. -/
theorem xorShift_inj {N k a b : ℕ} (hk : 0 < k) (ha : a < 2 ^ N) (hb : b < 2 ^ N) (h : a ^^^ a >>> k = b ^^^ b >>> k) : a = b := by
  have key : ∀ n j, N ≤ j + n → a.testBit j = b.testBit j := by
    intro n
    induction n using Nat.strong_induction_on with
    | _ n ih =>
      intro j hj
      have hbit := congrArg (Nat.testBit · j) h
      simp only [Nat.testBit_xor, Nat.testBit_shiftRight] at hbit
      by_cases hN : N ≤ j
      · rw [Nat.testBit_lt_two_pow (ha.trans_le (Nat.pow_le_pow_right (by norm_num) hN)), Nat.testBit_lt_two_pow (hb.trans_le (Nat.pow_le_pow_right (by norm_num) hN))]
      · have hs : a.testBit (k + j) = b.testBit (k + j) := ih (n - k) (by omega) (k + j) (by omega)
        rw [hs] at hbit
        exact Bool.xor_left_inj.1 hbit
  exact Nat.eq_of_testBit_eq fun j => key N j (by omega)

theorem xorShift_lt {N k a : ℕ} (ha : a < 2 ^ N) : a ^^^ a >>> k < 2 ^ N :=
  Nat.xor_lt_two_pow ha ((Nat.shiftRight_le _ _).trans_lt ha)

theorem mulMod_inj {M c a b : ℕ} (hc : Nat.gcd M c = 1) (ha : a < M) (hb : b < M) (h : a * c % M = b * c % M) : a = b := by
  have := Nat.ModEq.cancel_right_of_coprime hc (show a * c ≡ b * c [MOD M] from h)
  rwa [Nat.ModEq, Nat.mod_eq_of_lt ha, Nat.mod_eq_of_lt hb] at this

theorem splitmixNat_lt (i : ℕ) : splitmixNat i < 2 ^ 64 := xorShift_lt (Nat.mod_lt _ (by norm_num))

theorem splitmixNat_inj {i j : ℕ} (hi : i < 2 ^ 64) (hj : j < 2 ^ 64) (h : splitmixNat i = splitmixNat j) : i = j := by
  unfold splitmixNat at h
  have l : ∀ n : ℕ, n % 2 ^ 64 < 2 ^ 64 := fun n => Nat.mod_lt _ (by norm_num)
  have h1 := xorShift_inj (by norm_num) (l _) (l _) h
  have h2 := mulMod_inj (by decide +kernel) (xorShift_lt (l _)) (xorShift_lt (l _)) h1
  have h3 := xorShift_inj (by norm_num) (l _) (l _) h2
  have h4 := mulMod_inj (by decide +kernel) (xorShift_lt (l _)) (xorShift_lt (l _)) h3
  have h5 := xorShift_inj (by norm_num) (l _) (l _) h4
  have h6 := Nat.ModEq.cancel_right_of_coprime (by decide +kernel) (show (i + 1) * _ ≡ (j + 1) * _ [MOD 2 ^ 64] from h5)
  have h7 := Nat.ModEq.add_right_cancel' 1 h6
  rwa [Nat.ModEq, Nat.mod_eq_of_lt hi, Nat.mod_eq_of_lt hj] at h7

theorem splitmixNat_image : splitmixNat '' {i | i < 2 ^ 64} = {z | z < 2 ^ 64} := by
  have hf : ∀ M : ℕ, M = 2 ^ 64 → splitmixNat '' {i | i < M} = {z | z < M} := by
    intro M hM
    have h1 : Set.MapsTo splitmixNat (Finset.range M : Set ℕ) (Finset.range M) := fun i _ => by
      rw [Finset.coe_range, Set.mem_Iio, hM]; exact splitmixNat_lt i
    have h2 : Set.InjOn splitmixNat (Finset.range M : Set ℕ) := fun i hi j hj h => by
      rw [Finset.coe_range, Set.mem_Iio, hM] at hi hj; exact splitmixNat_inj hi hj h
    have h3 := Finset.surjOn_of_injOn_of_card_le _ h1 h2 le_rfl
    have h4 : (Finset.range M : Set ℕ) = {i | i < M} := by ext; simp
    rw [h4] at h1 h3
    exact Set.Subset.antisymm h1.image_subset h3
  exact hf _ rfl

/-- The words whose bits 2 to 53 are `k`. -/
theorem words_with {k : ℕ} (hk : k < 2 ^ 52) : {z : ℕ | z < 2 ^ 64 ∧ z / 4 % 2 ^ 52 = k}.ncard = 2 ^ 12 := by
  have h : {z : ℕ | z < 2 ^ 64 ∧ z / 4 % 2 ^ 52 = k} = (fun n => 4 * k + n % 4 + 2 ^ 54 * (n / 4)) '' (Finset.range (2 ^ 12) : Set ℕ) := by
    ext z
    simp only [Set.mem_ofPred_eq, Set.mem_image, Finset.coe_range, Set.mem_Iio]
    constructor
    · rintro ⟨h1, h2⟩
      exact ⟨z % 4 + 4 * (z / 2 ^ 54), by omega, by omega⟩
    · rintro ⟨n, h1, rfl⟩
      constructor <;> omega
  rw [h, Set.ncard_image_of_injOn, Set.ncard_coe_finset, Finset.card_range]
  intro a _ b _ hab
  simp only at hab
  omega

theorem splitmix_count {k : ℕ} (hk : k < 2 ^ 52) : {i : ℕ | i < 2 ^ 64 ∧ splitmixNat i / 4 % 2 ^ 52 = k}.ncard = 2 ^ 12 := by
  rw [← words_with hk, ← Set.ncard_image_of_injOn (f := splitmixNat) (s := {i : ℕ | i < 2 ^ 64 ∧ splitmixNat i / 4 % 2 ^ 52 = k})]
  · congr 1
    ext z
    constructor
    · rintro ⟨i, ⟨-, h2⟩, rfl⟩
      exact ⟨splitmixNat_lt i, h2⟩
    · rintro ⟨h1, h2⟩
      obtain ⟨i, h3, rfl⟩ := splitmixNat_image.symm.subset h1
      exact ⟨i, ⟨h3, h2⟩, rfl⟩
  · exact fun i hi j hj h => splitmixNat_inj hi.1 hj.1 h

/-- `runif(i, 0.0, 1.0)` at 64 bits is the 52-bit fraction of the word. -/
theorem runif_unit {calls : String → List RV → RV} {g : Name → RV} (hg : BitConsts .f64 g) {i : ℕ} (hi : i < 2 ^ 64) :
    Gen.runif.apply (ieeeInterp .f64 calls) g [.i i, .f 0, .f 1] = .f (((splitmixNat i / 4 % 2 ^ 52 : ℕ) : ℝ) / 2 ^ 52) := by
  have r1 : FloatFmt.f64.Repr 1 := by
    have := FloatFmt.repr_int (F := .f64) (FloatFmt.wide_fmtOf false).ok (k := 1) (by rw [abs_one]; exact one_le_pow₀ (by norm_num))
    exact_mod_cast this
  have hlt := splitmixBits_lt i
  have h53 : splitmixBits i ≤ 2 ^ 53 := by omega
  rw [runif_finite hg _ (by positivity) (by exact_mod_cast hi) FloatFmt.repr_zero r1 (by norm_num) (by rw [abs_zero]; positivity)
    (by rw [abs_one]; exact one_le_pow₀ (by norm_num)), sub_zero, FloatFmt.rnd_of_repr r1, mul_one, add_zero, FloatFmt.rnd_of_repr (FloatFmt.rnd_repr _),
    FloatFmt.rnd_of_repr (repr_fraction h53), bits_nat, Nat.shiftRight_eq_div_pow]

/-- **C106** Among the results of 64-bit `runif(i, 0.0, 1.0)` for all `2⁶⁴` indices, each of the numbers `k / 2⁵²` of the half-open unit interval is there exactly `2¹²` times, and no others
are. -/
theorem C106_uniform {calls : String → List RV → RV} {g : Name → RV} (hg : BitConsts .f64 g) :
    (∀ i : ℕ, i < 2 ^ 64 → ∃ k : ℕ, k < 2 ^ 52 ∧ Gen.runif.apply (ieeeInterp .f64 calls) g [.i i, .f 0, .f 1] = .f ((k : ℝ) / 2 ^ 52)) ∧
    ∀ k : ℕ, k < 2 ^ 52 → {i : ℕ | i < 2 ^ 64 ∧ Gen.runif.apply (ieeeInterp .f64 calls) g [.i i, .f 0, .f 1] = .f ((k : ℝ) / 2 ^ 52)}.ncard = 2 ^ 12 := by
  refine ⟨fun i hi => ⟨_, Nat.mod_lt _ (by norm_num), runif_unit hg hi⟩, fun k hk => ?_⟩
  rw [← splitmix_count hk]
  congr 1
  ext i
  refine and_congr_right fun hi => ?_
  rw [runif_unit hg hi, RV.f.injEq, div_left_inj' (by positivity)]
  exact Nat.cast_inj

/-- The constants can be had, and zero is one of the numbers. -/
example : {i : ℕ | i < 2 ^ 64 ∧ Gen.runif.apply (ieeeInterp .f64 fun _ _ => .junk) (demoBits .f64) [.i i, .f 0, .f 1] = .f (((0 : ℕ) : ℝ) / 2 ^ 52)}.ncard = 4096 :=
  (C106_uniform (demo_bits _)).2 0 (by norm_num)

end Verif

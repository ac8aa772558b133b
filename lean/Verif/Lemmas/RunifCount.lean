import Mathlib.Algebra.BigOperators.Fin
import Mathlib.Algebra.BigOperators.Intervals
import Mathlib.Tactic.Ring
import Mathlib.Tactic.NormNum

/-!
# Counting the first million uniform random numbers

The bucket of a sample is a function of natural numbers only, so the kernel can count them.  A sample of bucket `k` weighs `2 ^ (20 k)`: the sum of the weights
holds all 32 counts, 20 bits each.  The definitions use recursors because the kernel evaluates those directly.
-/

namespace Verif.RunifCount

/-- `f n`, with `n` evaluated first. -/
noncomputable def force (n : Nat) (f : Nat → Nat) : Nat := Nat.rec (f 0) (fun k _ => f (Nat.succ k)) n

theorem force_eq (n : Nat) (f : Nat → Nat) : force n f = f n := by cases n <;> rfl

/-- `f` of the output of `splitmix64` for index `i`. -/
noncomputable def mix (f : Nat → Nat) (i : Nat) : Nat :=
  force (Nat.mod (Nat.mul (Nat.add i 1) 11400714819323198485) 18446744073709551616) fun z =>
  force (Nat.mod (Nat.mul (Nat.xor z (Nat.shiftRight z 30)) 13787848793156543929) 18446744073709551616) fun z1 =>
  force (Nat.mod (Nat.mul (Nat.xor z1 (Nat.shiftRight z1 27)) 10723151780598845931) 18446744073709551616) fun z2 =>
  f (Nat.xor z2 (Nat.shiftRight z2 31))

/-- The weights of `2 ^ d` samples from `lo` on. -/
noncomputable def packed (f : Nat → Nat) (d lo : Nat) : Nat :=
  Nat.rec (motive := fun _ => Nat → Nat) (fun lo => mix f lo) (fun d ih lo => Nat.add (ih lo) (ih (Nat.add lo (Nat.pow 2 d)))) d lo

theorem packed_eq (f : ℕ → ℕ) (d : ℕ) : ∀ lo, packed f d lo = ∑ j ∈ Finset.range (2 ^ d), mix f (lo + j) := by
  induction d with
  | zero => intro lo; simp [packed]
  | succ d ih =>
    intro lo
    have h : packed f (d + 1) lo = packed f d lo + packed f d (lo + 2 ^ d) := rfl
    rw [h, ih, ih, pow_succ, mul_two, Finset.sum_range_add]
    simp only [Nat.add_assoc]

/-- The weights of the first `n` samples. -/
noncomputable def total (f : ℕ → ℕ) (n : ℕ) : ℕ := ∑ i ∈ Finset.range n, mix f i

theorem total_add (f : ℕ → ℕ) (d n : ℕ) : total f (n + 2 ^ d) = total f n + packed f d n := by
  unfold total; rw [Finset.sum_range_add, packed_eq]

/-- `splitmix64` on natural numbers. -/
def splitmixNat (i : ℕ) : ℕ :=
  let z := (i + 1) * 0x9e3779b97f4a7c15 % 2 ^ 64
  let z1 := (z ^^^ z >>> 30) * 0xbf58476d1ce4e5b9 % 2 ^ 64
  let z2 := (z1 ^^^ z1 >>> 27) * 0x94d049bb133111eb % 2 ^ 64
  z2 ^^^ z2 >>> 31

theorem mix_eq (f : ℕ → ℕ) (i : ℕ) : mix f i = f (splitmixNat i) := by
  unfold mix
  simp only [force_eq]
  rfl

/-- A sum of few powers of `B` holds its coefficients. -/
theorem digit {B : ℕ} (hB : 0 < B) : ∀ (j m : ℕ) (c : ℕ → ℕ), (∀ k, c k < B) → j < m → (∑ k ∈ Finset.range m, c k * B ^ k) / B ^ j % B = c j := by
  have step : ∀ (m : ℕ) (c : ℕ → ℕ), ∑ k ∈ Finset.range (m + 1), c k * B ^ k = B * (∑ k ∈ Finset.range m, c (k + 1) * B ^ k) + c 0 := by
    intro m c
    rw [Finset.sum_range_succ', Finset.mul_sum]
    simp only [pow_zero, mul_one, pow_succ]
    congr 1
    exact Finset.sum_congr rfl fun k _ => by ring
  intro j
  induction j with
  | zero =>
    intro m c hc hm
    obtain ⟨m, rfl⟩ : ∃ m', m = m' + 1 := ⟨m - 1, by omega⟩
    rw [step, pow_zero, Nat.div_one, Nat.mul_add_mod, Nat.mod_eq_of_lt (hc 0)]
  | succ j ih =>
    intro m c hc hm
    obtain ⟨m, rfl⟩ : ∃ m', m = m' + 1 := ⟨m - 1, by omega⟩
    rw [step, pow_succ', ← Nat.div_div_eq_div_mul, Nat.mul_add_div hB, Nat.div_eq_of_lt (hc 0), Nat.add_zero]
    exact ih m (fun k => c (k + 1)) (fun k => hc _) (by omega)

/-- The count of a class from the sum of the weights. -/
theorem count_eq {f b : ℕ → ℕ} {M : ℕ} (hf : ∀ z, f z = 1048576 ^ b z) (hb : ∀ z, b z < M) (n k : ℕ) (hn : n < 1048576) (hk : k < M) :
    ((Finset.range n).filter fun i => b (splitmixNat i) = k).card = total f n / 1048576 ^ k % 1048576 := by
  have h : total f n = ∑ k ∈ Finset.range M, ((Finset.range n).filter fun i => b (splitmixNat i) = k).card * 1048576 ^ k := by
    unfold total
    rw [← Finset.sum_fiberwise_of_maps_to (s := Finset.range n) (t := Finset.range M) (g := fun i => b (splitmixNat i)) fun i _ => Finset.mem_range.2 (hb _)]
    refine Finset.sum_congr rfl fun k _ => ?_
    rw [Finset.sum_congr rfl (g := fun _ => 1048576 ^ k) fun i hi => by rw [mix_eq, hf, (Finset.mem_filter.1 hi).2], Finset.sum_const, smul_eq_mul]
  rw [h, digit (by norm_num) k M _ _ hk]
  intro k
  refine lt_of_le_of_lt ((Finset.card_filter_le _ _).trans (by rw [Finset.card_range])) hn

/-- Bits 49 to 53, as the power of `2 ^ 20`. -/
noncomputable def bucketWeight (z : Nat) : Nat := Nat.pow 1048576 (Nat.mod (Nat.shiftRight z 49) 32)

/-- Which of eight intervals bits 2 to 53 fall into, as the power of `2 ^ 20`. -/
noncomputable def classWeight (z : Nat) : Nat :=
  force (Nat.mod (Nat.shiftRight z 2) 4503599627370496) fun n =>
  Bool.rec
    (Bool.rec
      (Bool.rec 1329227995784915872903807060280344576 1267650600228229401496703205376 (Nat.ble (Nat.succ n) 4401174506554929))
      (Bool.rec 1208925819614629174706176 1152921504606846976 (Nat.ble (Nat.succ n) 4366744418543506))
      (Nat.ble (Nat.succ n) 4401119562529587))
    (Bool.rec (Bool.rec 1393796574908163946345982392040522594123776 1099511627776 (Nat.ble (Nat.succ n) 4366289103710549)) (Bool.rec 1048576 1 (Nat.ble (Nat.succ n) 1197738769616387)) (Nat.ble (Nat.succ n) 1389687973952879))
    (Nat.ble (Nat.succ n) 4366675963692260)

end Verif.RunifCount

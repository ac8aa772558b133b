import Verif.Lemmas.DecText
import Verif.Lemmas.Dec

/-! # C03: literals with exponents -/

namespace Verif

theorem parseInt_natText (k : ℕ) : parseInt (natText k) = some (k : ℤ) := by
  rw [parseInt_digits (natText_isDigits k)]
  have h := parseDigits_natText k 0
  simp [parseNat, natText_ne_nil, h]

/-- **C03** A decimal text followed by `e` (or `E`), an optional sign and an exponent `k` is the decimal number times `10^k` or `10^-k`. -/
theorem C03_exponent (m : List Char) (d : Dec) (hm : parseDec m = some d) (hE : ∀ c ∈ m, c ≠ 'e' ∧ c ≠ 'E') (k : ℕ) (hk : (k : ℤ) ≤ 9223372036854775807)
    (c : Char) (hc : c = 'e' ∨ c = 'E') :
    (∀ s ∈ [[], ['+']], ∃ d', parseDec (m ++ c :: (s ++ natText k)) = some d' ∧ d'.val = d.val * 10 ^ (k : ℤ)) ∧
    ∃ d', parseDec (m ++ c :: ('-' :: natText k)) = some d' ∧ d'.val = d.val * 10 ^ (-(k : ℤ)) := by
  have hE' : ∀ x ∈ m, (x == 'e' || x == 'E') = false := by
    intro x hx; simpa using hE x hx
  have key : ∀ (t : List Char) (e : ℤ), parseExponent (some t) = some e → ∃ d', parseDec (m ++ c :: t) = some d' ∧ d'.val = d.val * 10 ^ e := by
    intro t e ht
    have h1 : splitFirst (fun c => c == 'e' || c == 'E') (m ++ c :: t) = (m, some t) :=
      splitFirst_some hE' (by rcases hc with rfl | rfl <;> decide)
    unfold parseDec at hm ⊢
    simp only [h1, ht] at hm ⊢
    rw [splitFirst_none hE'] at hm
    simp only [parseExponent] at hm
    split at hm
    · cases hm
    · rename_i hne
      rw [if_neg hne]
      split at hm
      · cases hm
      · rename_i i hi
        cases hm
        refine ⟨_, rfl, ?_⟩
        simp only [Dec.val]
        rw [show -((((splitFirst (fun c => c == '.') m).2.getD []).length : ℤ) - e) = -((((splitFirst (fun c => c == '.') m).2.getD []).length : ℤ) - 0) + e by ring,
          zpow_add₀ (by norm_num), mul_assoc]
  have hd : ∀ x ∈ natText k, x ≠ '+' := by
    intro x hx; obtain ⟨d, hd, rfl⟩ := natText_isDigits k x hx; exact (digitChar_ne hd).2.2.2.2
  have hp : parseI64 (natText k) = some (k : ℤ) := by
    unfold parseI64; rw [parseInt_natText]; simp only []; rw [if_pos ⟨by omega, hk⟩]
  have hdp : dropPlus (natText k) = natText k := by
    cases h : natText k with
    | nil => rfl
    | cons x xs =>
      have := hd x (by rw [h]; simp)
      unfold dropPlus; split
      · rename_i he; cases he; exact absurd rfl this
      · rfl
  constructor
  · intro s hs
    apply key
    simp only [List.mem_cons, List.not_mem_nil, or_false] at hs
    rcases hs with rfl | rfl
    · simp only [List.nil_append, parseExponent, hdp, hp]
    · simp only [parseExponent, List.cons_append, List.nil_append, dropPlus, hp]
  · apply key
    have h := parseDigits_natText k 0
    have h2 : parseInt ('-' :: natText k) = some (-(k : ℤ)) := by
      rw [parseInt_minus]; simp [parseNat, natText_ne_nil, h]
    show parseI64 ('-' :: natText k) = _
    unfold parseI64
    rw [h2]
    simp only []
    rw [if_pos ⟨by omega, by omega⟩]

example : (parseDec "-1.25e3".toList).map Dec.val = some (-1250) ∧ (parseDec "125E-2".toList).map Dec.val = some (5 / 4) := by
  constructor <;> norm_num [show parseDec "-1.25e3".toList = some ⟨-125, -1⟩ by decide, show parseDec "125E-2".toList = some ⟨125, 2⟩ by decide, Dec.val]

end Verif

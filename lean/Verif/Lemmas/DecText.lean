import Mathlib.Data.Nat.Digits.Lemmas
import Verif.Lemmas.Dec
import Verif.Model.DecText

/-! # Printing a decimal and reading it back -/

namespace Verif
open Dec

theorem charDigit_digitChar {d : Nat} (h : d < 10) : charDigit (digitChar d) = some d := by
  interval_cases d <;> decide

theorem digitChar_ne {d : Nat} (h : d < 10) :
    digitChar d ≠ '.' ∧ digitChar d ≠ 'e' ∧ digitChar d ≠ 'E' ∧ digitChar d ≠ '-' ∧ digitChar d ≠ '+' := by
  interval_cases d <;> decide

/-- A text all of whose characters are decimal digits. -/
def IsDigits (cs : List Char) : Prop := ∀ c ∈ cs, ∃ d, d < 10 ∧ c = digitChar d

theorem natText_isDigits (n : Nat) : IsDigits (natText n) := by
  intro c hc
  unfold natText at hc
  split at hc
  · simp at hc; exact ⟨0, by omega, by subst hc; rfl⟩
  · simp only [List.mem_map, List.mem_reverse] at hc
    obtain ⟨d, hd, rfl⟩ := hc
    exact ⟨d, Nat.digits_lt_base (by omega) hd, rfl⟩

theorem zeros_isDigits (k : Nat) : IsDigits (zeros k) := by
  intro c hc
  rw [zeros, List.mem_replicate] at hc
  exact ⟨0, by omega, hc.2⟩

theorem IsDigits.append {a b : List Char} (ha : IsDigits a) (hb : IsDigits b) : IsDigits (a ++ b) := by
  intro c hc
  rcases List.mem_append.mp hc with h | h
  · exact ha c h
  · exact hb c h

theorem natText_ne_nil (n : Nat) : natText n ≠ [] := by
  unfold natText
  split
  · simp
  · rename_i h; simp [Nat.digits_ne_nil_iff_ne_zero.mpr h]

theorem natText_length_pos (n : Nat) : 0 < (natText n).length :=
  List.length_pos_iff.mpr (natText_ne_nil n)

theorem parseDigits_append (a b : List Char) (acc : Nat) :
    parseDigits acc (a ++ b) = (parseDigits acc a).bind (fun x => parseDigits x b) := by
  induction a generalizing acc with
  | nil => simp [parseDigits]
  | cons c cs ih =>
    simp only [List.cons_append, parseDigits]
    split
    · exact ih _
    · rfl

theorem parseDigits_zeros (k acc : Nat) : parseDigits acc (zeros k) = some (acc * 10 ^ k) := by
  induction k generalizing acc with
  | zero => simp [zeros, parseDigits]
  | succ k ih =>
    have : charDigit '0' = some 0 := by decide
    simp only [zeros, List.replicate_succ, parseDigits, this] at *
    rw [ih]; congr 1; ring

theorem parseDigits_digits (ds : List Nat) (h : ∀ d ∈ ds, d < 10) (acc : Nat) :
    parseDigits acc (ds.reverse.map digitChar) = some (acc * 10 ^ ds.length + Nat.ofDigits 10 ds) := by
  induction ds generalizing acc with
  | nil => simp [parseDigits]
  | cons d ds ih =>
    have hd : d < 10 := h d (by simp)
    rw [List.reverse_cons, List.map_append, parseDigits_append, ih (fun x hx => h x (by simp [hx]))]
    simp only [List.map_cons, List.map_nil, Option.bind_some, parseDigits, charDigit_digitChar hd]
    congr 1
    rw [Nat.ofDigits_cons, List.length_cons]; ring

theorem parseDigits_natText (n acc : Nat) :
    parseDigits acc (natText n) = some (acc * 10 ^ (natText n).length + n) := by
  unfold natText
  split
  · rename_i h; subst h
    have : charDigit '0' = some 0 := by decide
    simp [parseDigits, this]
  · rw [parseDigits_digits _ (fun d hd => Nat.digits_lt_base (by omega) hd)]
    rw [Nat.ofDigits_digits]; simp

theorem splitFirst_none {p : Char → Bool} {cs : List Char} (h : ∀ c ∈ cs, p c = false) :
    splitFirst p cs = (cs, none) := by
  induction cs with
  | nil => rfl
  | cons c cs ih =>
    simp [splitFirst, h c (by simp), ih (fun x hx => h x (by simp [hx]))]

theorem splitFirst_some {p : Char → Bool} {a b : List Char} {c : Char} (h : ∀ x ∈ a, p x = false) (hc : p c = true) :
    splitFirst p (a ++ c :: b) = (a, some b) := by
  induction a with
  | nil => simp [splitFirst, hc]
  | cons x xs ih =>
    simp [splitFirst, h x (by simp), ih (fun y hy => h y (by simp [hy]))]

theorem parseInt_digits {cs : List Char} (h : IsDigits cs) : parseInt cs = (parseNat cs).map fun n => (n : Int) := by
  unfold parseInt
  split
  · exfalso
    obtain ⟨d, hd, he⟩ := h '-' (by simp)
    exact (digitChar_ne hd).2.2.2.1 he.symm
  · exfalso
    obtain ⟨d, hd, he⟩ := h '+' (by simp)
    exact (digitChar_ne hd).2.2.2.2 he.symm
  · rfl

theorem parseInt_minus (cs : List Char) : parseInt ('-' :: cs) = (parseNat cs).map fun n => -(n : Int) := by
  simp [parseInt]

/-- Reading a plain decimal text: sign, digits, optional point and digits. -/
theorem parseDec_plain (neg : Bool) {a b : List Char} (ha : IsDigits a) (hb : IsDigits b) (hne : a ≠ []) (n : Nat)
    (hn : parseDigits 0 (a ++ b) = some n) :
    parseDec ((if neg then ['-'] else []) ++ (if b = [] then a else a ++ '.' :: b)) =
      some ⟨if neg then -(n : Int) else n, b.length⟩ := by
  have hdot : ∀ c ∈ (if neg then ['-'] else []) ++ a, (c == '.') = false := by
    intro c hc
    rcases List.mem_append.mp hc with h | h
    · cases neg <;> simp at h; subst h; decide
    · obtain ⟨d, hd, rfl⟩ := ha c h
      simpa using (digitChar_ne hd).1
  have hE : ∀ c ∈ (if neg then ['-'] else []) ++ (if b = [] then a else a ++ '.' :: b), (c == 'e' || c == 'E') = false := by
    intro c hc
    have dig : ∀ d, d < 10 → (digitChar d == 'e' || digitChar d == 'E') = false := by
      intro d hd
      simpa using ⟨(digitChar_ne hd).2.1, (digitChar_ne hd).2.2.1⟩
    rcases List.mem_append.mp hc with h | h
    · cases neg <;> simp at h; subst h; decide
    · split at h
      · obtain ⟨d, hd, rfl⟩ := ha c h; exact dig d hd
      · rcases List.mem_append.mp h with h | h
        · obtain ⟨d, hd, rfl⟩ := ha c h; exact dig d hd
        · rcases List.mem_cons.mp h with h | h
          · subst h; decide
          · obtain ⟨d, hd, rfl⟩ := hb c h; exact dig d hd
  have hsplit : splitFirst (fun c => c == '.') ((if neg then ['-'] else []) ++ (if b = [] then a else a ++ '.' :: b)) =
      ((if neg then ['-'] else []) ++ a, if b = [] then none else some b) := by
    by_cases hbn : b = []
    · simp only [if_pos hbn]; exact splitFirst_none hdot
    · simp only [if_neg hbn]; rw [← List.append_assoc]; exact splitFirst_some hdot (by decide)
  have hint : parseInt ((if neg then ['-'] else []) ++ a ++ b) = some (if neg then -(n : Int) else n) := by
    have hpn : parseNat (a ++ b) = some n := by
      unfold parseNat; rw [if_neg (by simp [hne]), hn]
    cases neg
    · simp only [Bool.false_eq_true, if_false, List.nil_append]
      rw [parseInt_digits (ha.append hb), hpn]; rfl
    · simp only [if_true, List.cons_append, List.nil_append]
      rw [parseInt_minus, hpn]; rfl
  unfold parseDec
  simp only
  rw [splitFirst_none hE]
  simp only [parseExponent]
  have hne2 : ¬ ((if neg then ['-'] else []) ++ (if b = [] then a else a ++ '.' :: b) = []) := by
    intro h
    have h2 := (List.append_eq_nil_iff.mp h).2
    split at h2
    · exact hne h2
    · simp at h2
  rw [if_neg hne2, hsplit]
  simp only
  have hb' : (if b = [] then none else some b).getD [] = b := by
    split
    · rename_i h; simp [h]
    · rfl
  rw [hb', hint]
  simp

/-- Printing then parsing: the value is kept; a non-negative scale is kept too, a negative scale becomes 0. -/
theorem parseDec_displayDec (d : Dec) :
    parseDec (displayDec d) = some (if 0 ≤ d.scale then d else ⟨d.int * tenPow (-d.scale), 0⟩) := by
  have key : ∀ a b : List Char, displayParts d = (a, b) → IsDigits a → IsDigits b → a ≠ [] →
      (b.length : Int) = (if 0 ≤ d.scale then d.scale else 0) →
      parseDigits 0 (a ++ b) = some (if 0 ≤ d.scale then d.int.natAbs else d.int.natAbs * 10 ^ (-d.scale).toNat) →
      parseDec (displayDec d) = some (if 0 ≤ d.scale then d else ⟨d.int * tenPow (-d.scale), 0⟩) := by
    intro a b hp ha hb hne hlen hn
    have hdisp : displayDec d = (if decide (d.int < 0) then ['-'] else []) ++ (if b = [] then a else a ++ '.' :: b) := by
      unfold displayDec
      simp only [hp]
      by_cases h : d.int < 0 <;> simp [h]
    rw [hdisp, parseDec_plain _ ha hb hne _ hn, hlen]
    congr 1
    have hs : ∀ m : Int, (if decide (d.int < 0) = true then -((d.int.natAbs : Int) * m) else (d.int.natAbs : Int) * m) = d.int * m := by
      intro m
      by_cases h : d.int < 0
      · rw [if_pos (by simpa using h), Int.ofNat_natAbs_of_nonpos h.le]; ring
      · rw [if_neg (by simpa using h), Int.natAbs_of_nonneg (by omega)]
    by_cases hz : 0 ≤ d.scale
    · have := hs 1
      simp only [mul_one] at this
      simp only [if_pos hz]
      rw [this]
    · simp only [if_neg hz]
      rw [← hs]
      simp [tenPow]
  have hdig := natText_isDigits d.int.natAbs
  have hpos := natText_length_pos d.int.natAbs
  by_cases h1 : ((natText d.int.natAbs).length : Int) ≤ d.scale
  · have hz : 0 ≤ d.scale := by omega
    refine key _ _ (by unfold displayParts; simp only [if_pos h1]; rfl) ?_ ?_ (by simp) ?_ ?_
    · intro c hc; simp at hc; exact ⟨0, by omega, by subst hc; rfl⟩
    · exact (zeros_isDigits _).append hdig
    · rw [if_pos hz]; simp [zeros]; omega
    · rw [if_pos hz]
      have : (['0'] : List Char) = zeros 1 := rfl
      rw [this, parseDigits_append, parseDigits_zeros, Option.bind_some, parseDigits_append, parseDigits_zeros,
        Option.bind_some, parseDigits_natText]; simp
  · by_cases h2 : ((natText d.int.natAbs).length : Int) < (natText d.int.natAbs).length - d.scale
    · have hz : ¬ 0 ≤ d.scale := by omega
      refine key _ _ (by unfold displayParts; simp only [if_neg h1, if_pos h2]; rfl) ?_ ?_ ?_ ?_ ?_
      · exact hdig.append (zeros_isDigits _)
      · intro c hc; simp at hc
      · simp [natText_ne_nil]
      · rw [if_neg hz]; simp
      · rw [if_neg hz, List.append_nil, parseDigits_append, parseDigits_natText, Option.bind_some, parseDigits_zeros]
        simp only [zero_mul, zero_add]
        congr 3; omega
    · have hz : 0 ≤ d.scale := by omega
      refine key _ _ (by unfold displayParts; simp only [if_neg h1, if_neg h2]; rfl) ?_ ?_ ?_ ?_ ?_
      · intro c hc; exact hdig c (List.mem_of_mem_take hc)
      · intro c hc; exact hdig c (List.mem_of_mem_drop hc)
      · intro h
        rw [List.take_eq_nil_iff] at h
        rcases h with h | h
        · omega
        · exact natText_ne_nil _ h
      · rw [if_pos hz, List.length_drop]; omega
      · rw [if_pos hz, List.take_append_drop, parseDigits_natText]; simp

end Verif

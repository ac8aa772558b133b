import Verif.Lemmas.Div
import Verif.Lemmas.Round
import Verif.Model.BdMath

/-! # The series loop: termination and sign symmetry -/

namespace Verif
namespace Bd
open Dec

/-- The closure never diverges, and never answers `None` at two consecutive indices. -/
def Alternates {σ : Type} (f : Closure σ) : Prop :=
  (∀ s i t p q, f s i t p q ≠ .diverge) ∧
  (∀ s i t p q s', f s i t p q = .ok (none, s') → ∀ s2 t2 p2 q2 s3, f s2 (i + 1) t2 p2 q2 ≠ .ok (none, s3))

theorem div_ne_diverge (a b : Dec) : Dec.div a b ≠ .diverge := by
  unfold Dec.div; split_ifs <;> simp

theorem div_bind_ne_diverge {β : Type} (a b : Dec) (g : Dec → Res β) (h : ∀ q, g q ≠ .diverge) :
    (Dec.div a b >>= g) ≠ .diverge := by
  have := div_ne_diverge a b
  cases hd : Dec.div a b <;> simp_all

theorem div_bind_ne_none {σ : Type} (a b : Dec) (g : Dec → Res (Option Dec × σ)) (s' : σ)
    (h : ∀ q, g q ≠ .ok (none, s')) : (Dec.div a b >>= g) ≠ .ok (none, s') := by
  cases hd : Dec.div a b <;> simp_all

/-- With enough fuel the loop neither diverges nor depends on the fuel. -/
theorem loop_stops {σ : Type} (x : Dec) (n : Int) (f : Closure σ) (hf : Alternates f) :
    ∀ (fuel fuel' : Nat) (s : σ) (i : Nat) (t p q : Dec), i ≤ 30002 → 30003 ≤ fuel + i → 30003 ≤ fuel' + i →
      (i = 30002 → ∀ s2 t2 p2 q2 s3, f s2 i t2 p2 q2 ≠ .ok (none, s3)) →
      maclaurinLoop x n f fuel s i t p q ≠ .diverge ∧
      maclaurinLoop x n f fuel s i t p q = maclaurinLoop x n f fuel' s i t p q := by
  intro fuel
  induction fuel with
  | zero => intro fuel' s i t p q h1 h2; omega
  | succ fuel ih =>
    intro fuel' s i t p q h1 h2 h3 h4
    obtain ⟨fuel', rfl⟩ : ∃ k, fuel' = k + 1 := ⟨fuel' - 1, by omega⟩
    rw [maclaurinLoop, maclaurinLoop]
    cases hr : f s i t p q with
    | err e => simp
    | panic => simp
    | diverge => exact absurd hr (hf.1 s i t p q)
    | ok r =>
      obtain ⟨o, s'⟩ := r
      simp only [Res.ok_bind]
      cases o with
      | some nt =>
        simp only
        split_ifs with hb hi
        · simp
        · simp
        · exact ih fuel' _ _ _ _ _ (by omega) (by omega) (by omega) (by intro h; omega)
      | none =>
        simp only
        have hi : i ≠ 30002 := fun h => h4 h s t p q s' hr
        exact ih fuel' _ _ _ _ _ (by omega) (by omega) (by omega)
          (fun h s2 t2 p2 q2 s3 => hf.2 s i t p q s' hr s2 t2 p2 q2 s3)

theorem alternates_sin : Alternates sinTerm := by
  constructor
  · intro s i t p q
    unfold sinTerm
    split
    · exact div_bind_ne_diverge _ _ _ (by simp)
    · exact div_bind_ne_diverge _ _ _ (by simp)
    · simp
  · intro s i t p q s' h s2 t2 p2 q2 s3
    have hi : i % 4 ≠ 1 ∧ i % 4 ≠ 3 := by
      constructor <;> intro hi <;> simp only [sinTerm, hi] at h <;>
        exact div_bind_ne_none _ _ _ _ (by simp) h
    have : (i + 1) % 4 = 1 ∨ (i + 1) % 4 = 3 := by omega
    unfold sinTerm
    rcases this with h1 | h1 <;> simp only [h1] <;> exact div_bind_ne_none _ _ _ _ (by simp)

theorem alternates_cos : Alternates cosTerm := by
  constructor
  · intro s i t p q
    unfold cosTerm
    split
    · exact div_bind_ne_diverge _ _ _ (by simp)
    · exact div_bind_ne_diverge _ _ _ (by simp)
    · simp
  · intro s i t p q s' h s2 t2 p2 q2 s3
    have hi : i % 4 ≠ 0 ∧ i % 4 ≠ 2 := by
      constructor <;> intro hi <;> simp only [cosTerm, hi] at h <;>
        exact div_bind_ne_none _ _ _ _ (by simp) h
    have : (i + 1) % 4 = 0 ∨ (i + 1) % 4 = 2 := by omega
    unfold cosTerm
    rcases this with h1 | h1 <;> simp only [h1] <;> exact div_bind_ne_none _ _ _ _ (by simp)

theorem alternates_exp : Alternates expTerm :=
  ⟨fun _ _ _ _ _ => div_bind_ne_diverge _ _ _ (by simp),
    fun _ _ _ _ _ _ _ _ _ _ _ _ => div_bind_ne_none _ _ _ _ (by simp)⟩

theorem alternates_erf : Alternates erfTerm :=
  ⟨fun _ _ _ _ _ => div_bind_ne_diverge _ _ _ (by intro q; split_ifs <;> simp),
    fun _ _ _ _ _ _ _ _ _ _ _ _ => div_bind_ne_none _ _ _ _ (by intro q; split_ifs <;> simp)⟩

theorem alternates_atan : Alternates atanTerm := by
  constructor
  · intro s i t p q
    unfold atanTerm
    split
    · exact div_bind_ne_diverge _ _ _ (by simp)
    · simp
  · intro s i t p q s' h s2 t2 p2 q2 s3
    have hi : ¬ i % 2 ≠ 0 := by
      intro hi
      unfold atanTerm at h
      rw [if_pos hi] at h
      exact div_bind_ne_none _ _ _ _ (by simp) h
    have h1 : (i + 1) % 2 ≠ 0 := by omega
    unfold atanTerm
    rw [if_pos h1]
    exact div_bind_ne_none _ _ _ _ (by simp)

theorem alternates_asin : Alternates asinTerm := by
  constructor
  · intro s i t p q
    unfold asinTerm
    split
    · exact div_bind_ne_diverge _ _ _ (fun q => div_bind_ne_diverge _ _ _ (by simp))
    · simp
  · intro s i t p q s' h s2 t2 p2 q2 s3
    have hi : ¬ i % 2 ≠ 0 := by
      intro hi
      unfold asinTerm at h
      rw [if_pos hi] at h
      exact div_bind_ne_none _ _ _ _ (fun q => div_bind_ne_none _ _ _ _ (by simp)) h
    have h1 : (i + 1) % 2 ≠ 0 := by omega
    unfold asinTerm
    rw [if_pos h1]
    exact div_bind_ne_none _ _ _ _ (fun q => div_bind_ne_none _ _ _ _ (by simp))

theorem alternates_lnPlus : Alternates lnPlusTerm := by
  constructor
  · intro s i t p q
    unfold lnPlusTerm
    split
    · simp
    · exact div_bind_ne_diverge _ _ _ (by simp)
  · intro s i t p q s' h s2 t2 p2 q2 s3
    unfold lnPlusTerm
    rw [if_neg (by omega)]
    exact div_bind_ne_none _ _ _ _ (by simp)

theorem alternates_lnMinus : Alternates lnMinusTerm := by
  constructor
  · intro s i t p q
    unfold lnMinusTerm
    split
    · simp
    · exact div_bind_ne_diverge _ _ _ (by simp)
  · intro s i t p q s' h s2 t2 p2 q2 s3
    unfold lnMinusTerm
    rw [if_neg (by omega)]
    exact div_bind_ne_none _ _ _ _ (by simp)

theorem maclaurin_ne_diverge {σ : Type} (x : Dec) (n : Int) (f : Closure σ) (hf : Alternates f) (s : σ) :
    maclaurin x n f s ≠ .diverge := by
  have := (loop_stops x n f hf loopTurns loopTurns s 0 Dec.zero Dec.one Dec.one (by omega) (by decide) (by decide)
    (by omega)).1
  unfold maclaurin
  cases h : maclaurinLoop x n f loopTurns s 0 Dec.zero Dec.one Dec.one <;> simp_all

/-! ## Sign symmetry -/

theorem neg_neg' (a : Dec) : -(-a) = a := by
  cases a; show (⟨_, _⟩ : Dec) = _; simp [Dec.neg, show ∀ a : Dec, -a = Dec.neg a from fun _ => rfl]

theorem neg_def (a : Dec) : -a = ⟨-a.int, a.scale⟩ := rfl
theorem add_def (a b : Dec) : a + b = Dec.add a b := rfl
theorem sub_def (a b : Dec) : a - b = Dec.sub a b := rfl
theorem mul_def (a b : Dec) : a * b = ⟨a.int * b.int, a.scale + b.scale⟩ := rfl

theorem neg_add_neg (a b : Dec) : -a + -b = -(a + b) := by
  simp only [add_def, neg_def, Dec.add]
  split_ifs <;> simp only [Dec.mk.injEq, and_true] <;> ring

theorem neg_sub_neg (a b : Dec) : -a - -b = -(a - b) := by
  simp only [sub_def, neg_def, Dec.sub]
  split_ifs <;> simp only [Dec.mk.injEq, and_true] <;> ring

theorem neg_mul (a b : Dec) : -a * b = -(a * b) := by
  simp only [mul_def, neg_def]; simp

theorem mul_neg (a b : Dec) : a * -b = -(a * b) := by
  simp only [mul_def, neg_def]; simp

theorem neg_mul_neg (a b : Dec) : -a * -b = a * b := by
  simp only [mul_def, neg_def]; simp

theorem withScale_neg (a : Dec) (s : Int) : (-a).withScale s = -(a.withScale s) := by
  cases a with
  | mk i t =>
    simp only [Dec.withScale, neg_def, neg_eq_zero]
    by_cases h : i = 0
    · simp [h]
    · by_cases h1 : t < s
      · simp [h, h1]
      · by_cases h2 : s < t
        · simp [h, h1, h2, Int.neg_tdiv]
        · simp [h, h1, h2]

theorem round_neg (x : Dec) (n : Int) : round (-x) n = -(round x n) := by
  unfold round
  by_cases h : n < 0 ∨ x.scale ≤ n
  · rw [if_pos h, if_pos (by exact h)]
  · rw [if_neg h, if_neg (by exact h)]
    rcases lt_trichotomy x.int 0 with h0 | h0 | h0
    · have h1 : (-x).isPositive = true := by simp [Dec.isPositive, neg_def, h0]
      have h2 : ¬ x.isPositive = true := by simp [Dec.isPositive]; omega
      rw [if_pos h1, if_neg h2, ← withScale_neg]
      congr 1
      rw [← neg_add_neg]; rfl
    · have hx : -x = x := by cases x; simp [neg_def] at *; omega
      rw [hx, ← withScale_neg]
      have h2 : ¬ x.isPositive = true := by simp [Dec.isPositive]; omega
      rw [if_neg h2]
      have hz : ∀ k : Int, (|k| = 5) → ((x + (⟨k, n + 1⟩ : Dec)).withScale n) = ⟨0, n⟩ := by
        intro k hk
        have hs : n + 1 ≤ x.scale := by
          simp only [not_or, not_lt, not_le] at h; omega
        have hadd : x + (⟨k, n + 1⟩ : Dec) = ⟨k * tenPow (x.scale - (n + 1)), x.scale⟩ := by
          simp only [add_def, Dec.add]
          split_ifs with a b
          · have : x.scale - (n + 1) = 0 := by omega
            simp [h0, a, tenPow]
          · omega
          · simp [h0]
        rw [hadd, Dec.withScale]
        simp only
        split_ifs with a b c
        · rfl
        · omega
        · congr 1
          have e : x.scale - n = x.scale - (n + 1) + 1 := by omega
          rw [e, tenPow_succ (by omega)]
          have hp := tenPow_pos (x.scale - (n + 1))
          rcases abs_eq (by norm_num : (0 : ℤ) ≤ 5) |>.1 hk with rfl | rfl
          · rw [Int.tdiv_eq_ediv_of_nonneg (by positivity)]
            exact Int.ediv_eq_zero_of_lt (by positivity) (by nlinarith)
          · rw [show (-5 : ℤ) * tenPow (x.scale - (n + 1)) = -(5 * tenPow (x.scale - (n + 1))) by ring, Int.neg_tdiv,
              Int.tdiv_eq_ediv_of_nonneg (by positivity)]
            rw [Int.ediv_eq_zero_of_lt (by positivity) (by nlinarith)]; rfl
        · omega
      rw [hz (-5) (by norm_num), withScale_neg, hz (-5) (by norm_num)]; simp [neg_def]
    · have h1 : ¬ (-x).isPositive = true := by simp [Dec.isPositive, neg_def]; omega
      have h2 : x.isPositive = true := by simp [Dec.isPositive, h0]
      rw [if_neg h1, if_pos h2, ← withScale_neg]
      congr 1
      rw [← neg_add_neg]; rfl

/-- `p` at even, `-p` at odd indices. -/
def flip (i : Nat) (p : Dec) : Dec := if i % 2 = 0 then p else -p

theorem flip_succ (i : Nat) (p x : Dec) (n : Int) :
    round (flip i p * -x) n = flip (i + 1) (round (p * x) n) := by
  unfold flip
  by_cases h : i % 2 = 0
  · rw [if_pos h, if_neg (by omega), mul_neg, round_neg]
  · rw [if_neg h, if_pos (by omega), neg_mul_neg]

theorem beq_neg (a b : Dec) : Dec.beq (-a) (-b) = Dec.beq a b := by
  rw [beq_eq_decide, beq_eq_decide]; simp

/-- An odd closure makes the loop odd. -/
theorem loop_odd {σ : Type} (x : Dec) (n : Int) (f : Closure σ)
    (hf : ∀ s i t p q, f s i (-t) (flip i p) q = (f s i t p q >>= fun r => pure (r.1.map (fun d => -d), r.2))) :
    ∀ (fuel : Nat) (s : σ) (i : Nat) (t p q : Dec),
      maclaurinLoop (-x) n f fuel s i (-t) (flip i p) q =
        (maclaurinLoop x n f fuel s i t p q >>= fun d => pure (-d)) := by
  intro fuel
  induction fuel with
  | zero => intros; rfl
  | succ fuel ih =>
    intro s i t p q
    rw [maclaurinLoop, maclaurinLoop, hf]
    cases hr : f s i t p q with
    | err e => simp
    | panic => simp
    | diverge => simp
    | ok r =>
      obtain ⟨o, s'⟩ := r
      cases o with
      | some nt =>
        simp only [Res.ok_bind, Res.pure_eq, Option.map_some, round_neg, beq_neg]
        split_ifs
        · rfl
        · rfl
        · rw [flip_succ, ih]; simp
      | none =>
        simp only [Res.ok_bind, Res.pure_eq, Option.map_none]
        rw [flip_succ, ih]; simp

/-- An even closure makes the loop even. -/
theorem loop_even {σ : Type} (x : Dec) (n : Int) (f : Closure σ)
    (hf : ∀ s i t p q, f s i t (flip i p) q = f s i t p q) :
    ∀ (fuel : Nat) (s : σ) (i : Nat) (t p q : Dec),
      maclaurinLoop (-x) n f fuel s i t (flip i p) q = maclaurinLoop x n f fuel s i t p q := by
  intro fuel
  induction fuel with
  | zero => intros; rfl
  | succ fuel ih =>
    intro s i t p q
    rw [maclaurinLoop, maclaurinLoop, hf]
    cases hr : f s i t p q with
    | err e => simp
    | panic => simp
    | diverge => simp
    | ok r =>
      obtain ⟨o, s'⟩ := r
      cases o with
      | some nt =>
        simp only [Res.ok_bind, Res.pure_eq]
        split_ifs
        · rfl
        · rfl
        · rw [flip_succ, ih]
      | none =>
        simp only [Res.ok_bind]
        rw [flip_succ, ih]

theorem maclaurin_odd {σ : Type} (x : Dec) (n : Int) (f : Closure σ) (s : σ)
    (hf : ∀ s i t p q, f s i (-t) (flip i p) q = (f s i t p q >>= fun r => pure (r.1.map (fun d => -d), r.2))) :
    maclaurin (-x) n f s = (maclaurin x n f s >>= fun d => pure (-d)) := by
  unfold maclaurin
  have h := loop_odd x n f hf loopTurns s 0 Dec.zero Dec.one Dec.one
  rw [show flip 0 Dec.one = Dec.one from rfl, show -Dec.zero = Dec.zero from rfl] at h
  rw [h]
  cases maclaurinLoop x n f loopTurns s 0 Dec.zero Dec.one Dec.one <;> simp [round_neg, normalized_neg]

theorem maclaurin_even {σ : Type} (x : Dec) (n : Int) (f : Closure σ) (s : σ)
    (hf : ∀ s i t p q, f s i t (flip i p) q = f s i t p q) :
    maclaurin (-x) n f s = maclaurin x n f s := by
  unfold maclaurin
  have h := loop_even x n f hf loopTurns s 0 Dec.zero Dec.one Dec.one
  rw [show flip 0 Dec.one = Dec.one from rfl] at h
  rw [h]

theorem sub_neg_of_neg (a b : Dec) : -a - b = -(a - -b) := by
  rw [← neg_sub_neg, neg_neg']

theorem sinTerm_odd (s : Unit) (i : Nat) (t p q : Dec) :
    sinTerm s i (-t) (flip i p) q = (sinTerm s i t p q >>= fun r => pure (r.1.map (fun d => -d), r.2)) := by
  unfold sinTerm flip
  have h4 : i % 4 = 0 ∨ i % 4 = 1 ∨ i % 4 = 2 ∨ i % 4 = 3 := by omega
  rcases h4 with h | h | h | h
  · simp [h]
  · rw [if_neg (by omega), h]
    simp only [div_neg_left]
    cases hd : Dec.div p q <;> simp [neg_add_neg]
  · simp [h]
  · rw [if_neg (by omega), h]
    simp only [div_neg_left]
    cases hd : Dec.div p q <;> simp [neg_sub_neg]

theorem atanTerm_odd (s : Unit) (i : Nat) (t p q : Dec) :
    atanTerm s i (-t) (flip i p) q = (atanTerm s i t p q >>= fun r => pure (r.1.map (fun d => -d), r.2)) := by
  unfold atanTerm flip
  by_cases h : i % 2 = 0
  · simp [h]
  · rw [if_pos h, if_pos h, if_neg h]
    simp only [div_neg_left]
    cases hd : Dec.div p (ofInt (if i / 2 % 2 ≠ 0 then -(i : Int) else i)) <;> simp [neg_add_neg]

theorem asinTerm_odd (s : Dec × Dec) (i : Nat) (t p q : Dec) :
    asinTerm s i (-t) (flip i p) q = (asinTerm s i t p q >>= fun r => pure (r.1.map (fun d => -d), r.2)) := by
  unfold asinTerm flip
  by_cases h : i % 2 = 0
  · simp [h]
  · rw [if_pos h, if_pos h, if_neg h]
    simp only [neg_mul, div_neg_left]
    cases hd : Dec.div (p * s.1) s.2 with
    | ok a =>
      simp only [Res.ok_bind, Res.pure_eq, div_neg_left]
      cases hd2 : Dec.div a (ofInt (i : Int)) <;> simp [neg_add_neg]
    | _ => simp

theorem cosTerm_even (s : Unit) (i : Nat) (t p q : Dec) : cosTerm s i t (flip i p) q = cosTerm s i t p q := by
  unfold cosTerm flip
  by_cases h : i % 2 = 0
  · rw [if_pos h]
  · have : i % 4 = 1 ∨ i % 4 = 3 := by omega
    rcases this with h | h <;> simp [h]

end Bd
end Verif

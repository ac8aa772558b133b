import Verif.Lemmas.Newton
import Verif.Lemmas.SeriesErr
import Verif.Spec.Meaning

/-!
# C35-C38: interpolation polynomials and the emitted multiply-add chains
-/

namespace Verif
open Dec

/-- Value of the `i`-th entry of a vector. -/
def valAt (l : List Dec) (i : ℕ) : ℚ := (l.getD i default).val

/-- The vectors have the right lengths and the abscissae are pairwise distinct. -/
def GoodPoints (xl yl : List Dec) : Prop :=
  0 < yl.length ∧ yl.length ≤ xl.length ∧ ∀ i j, i < j → j < yl.length → valAt xl i ≠ valAt xl j

/-! ## C36 -/

theorem C36_eval_is_sum (terms : List Dec) (h : 0 < terms.length) (t : Dec) :
    ∃ d, polyEval terms t = .ok d ∧ d.val = ∑ j ∈ Finset.range terms.length, valAt terms j * t.val ^ j := by
  have := polyEval_ok (fun j => terms.getD j default) terms.length h t
  rw [← tab_get] at this
  exact this

/-- **C36** Only the empty polynomial panics. -/
theorem C36_eval_empty (t : Dec) : polyEval [] t = .panic := rfl

example : polyEval [⟨-27, 0⟩, ⟨5, 1⟩, ⟨2, 0⟩] ⟨3, 0⟩ = .ok ⟨-75, 1⟩ := by decide +kernel

/-! ## C35 -/

/-- **C35** Interpolation returns exactly on good points … -/
theorem C35_returns_iff (xl yl : List Dec) (n : Int) : (∃ t, fromPoints xl yl n = .ok t) ↔ GoodPoints xl yl :=
  fromPoints_returns xl yl n

/-- **C35** … and panics on all others. -/
theorem C35_panics_otherwise (xl yl : List Dec) (n : Int) (h : ¬ GoodPoints xl yl) : fromPoints xl yl n = .panic :=
  fromPoints_panic xl yl n h

theorem C35_length (xl yl : List Dec) (n : Int) (t : List Dec) (h : fromPoints xl yl n = .ok t) : t.length = yl.length := by
  obtain ⟨h0, h1, hd⟩ := (C35_returns_iff xl yl n).1 ⟨t, h⟩
  have hx : ∀ j, j < yl.length → vget xl j = .ok (xl.getD j default) := fun j hj => vget_ok_of xl j (by omega)
  have := fromPoints_ok xl (fun j => xl.getD j default) (fun j => yl.getD j default) n yl.length h0 hx hd
  rw [← tab_get, h] at this
  cases this
  simp

theorem round_of_int (d : Dec) (n k : Int) (h : d.val = k) : (round d n).val = k := by
  by_cases hn : 0 ≤ n
  · rw [val_round hn, h]
    have := rndAway_fix (k * 10 ^ n.toNat) n
    have e : ((k * 10 ^ n.toNat : Int) : ℚ) * 10 ^ (-n) = k := by
      push_cast
      rw [show ((10 : ℚ) ^ n.toNat) = (10 : ℚ) ^ n by rw [← zpow_natCast, Int.toNat_of_nonneg hn], zpow_neg, mul_assoc,
        mul_inv_cancel₀ (zpow_ne' n), mul_one]
    rw [e] at this
    exact this
  · rw [round_neg_digits (by omega), h]

theorem cnb_hi (x : Nat → Dec) (n : Int) : ∀ i j, i < j → (cnb x n i j).val = 0 := by
  intro i
  induction i with
  | zero => intro j hj; rw [cnb, if_neg (by omega), val_zero]
  | succ i ih =>
    intro j hj
    cases j with
    | zero => omega
    | succ j =>
      rw [cnb]
      have := round_of_int (cnb x n i (j + 1) * -x i + cnb x n i j) n 0 (by
        rw [val_add, val_mul, ih (j + 1) (by omega), ih j (by omega)]; simp)
      simpa using this

/-- The quotient is off by at most `10^-99` times its size. -/
theorem quot_err (a b : Dec) (h : b.val ≠ 0) (M : ℚ) (hM : |(quot a b).val| ≤ M) :
    |(quot a b).val - a.val / b.val| ≤ M / 10 ^ 99 := by
  obtain ⟨q, hq, he⟩ := (Dec.div_spec a b).2 h
  have e : quot a b = q := by unfold quot; rw [hq]
  rw [e] at hM ⊢
  have hε : divEps = 1 / 2 / 10 ^ 99 := by norm_num [divEps]
  rw [hε] at he
  generalize a.val / b.val = z at *
  have h1 : |z| ≤ 2 * M := by
    have := abs_sub_abs_le_abs_sub z q.val
    rw [abs_sub_comm] at this
    have hz := abs_nonneg z
    have : (1 : ℚ) / 2 / 10 ^ 99 * |z| ≤ 1 / 2 * |z| := by
      apply mul_le_mul_of_nonneg_right _ hz
      norm_num
    linarith
  have h2 : (1 : ℚ) / 2 / 10 ^ 99 * |z| ≤ 1 / 2 / 10 ^ 99 * (2 * M) := by gcongr
  calc _ ≤ _ := he
    _ ≤ _ := h2
    _ = M / 10 ^ 99 := by ring

/-- General residual in terms of the errors of the single steps. -/
theorem interp_residual (xl yl : List Dec) (n : Int) (t : List Dec) (h : fromPoints xl yl n = .ok t) (ε η D : ℚ) (hε : 0 ≤ ε) (hη : 0 ≤ η)
    (hdist : ∀ i j, i < yl.length → j < yl.length → |valAt xl i - valAt xl j| ≤ D)
    (hT : ∀ a s, a + s + 1 < yl.length →
      |(cdd (fun j => xl.getD j default) (fun j => yl.getD j default) n a (s + 1)).val -
        ((cdd (fun j => xl.getD j default) (fun j => yl.getD j default) n (a + 1) s).val -
          (cdd (fun j => xl.getD j default) (fun j => yl.getD j default) n a s).val) / (valAt xl (a + s + 1) - valAt xl a)| ≤ ε)
    (hN : ∀ i j, |(cnb (fun j => xl.getD j default) n (i + 1) (j + 1)).val -
      ((cnb (fun j => xl.getD j default) n i (j + 1)).val * -valAt xl i + (cnb (fun j => xl.getD j default) n i j).val)| ≤ η)
    (hP : ∀ i j, |(round (cnb (fun j => xl.getD j default) n i j *
      cdd (fun j => xl.getD j default) (fun j => yl.getD j default) n 0 i) n).val -
      (cnb (fun j => xl.getD j default) n i j).val * (cdd (fun j => xl.getD j default) (fun j => yl.getD j default) n 0 i).val| ≤ η)
    (m : ℕ) (hm : m < yl.length) :
    ∃ d, polyEval t (xl.getD m default) = .ok d ∧
      |d.val - valAt yl m| ≤ ε * ((1 + D) ^ m - 1) + η * (∑ j ∈ Finset.range yl.length, |valAt xl m| ^ j) *
        ∑ i ∈ Finset.range yl.length,
          (1 + |(cdd (fun j => xl.getD j default) (fun j => yl.getD j default) n 0 i).val| * ∑ l ∈ Finset.range i, D ^ l) := by
  obtain ⟨h0, h1, hd⟩ := (C35_returns_iff xl yl n).1 ⟨t, h⟩
  have hx : ∀ j, j < yl.length → vget xl j = .ok (xl.getD j default) := fun j hj => vget_ok_of xl j (by omega)
  have hf := fromPoints_ok xl (fun j => xl.getD j default) (fun j => yl.getD j default) n yl.length h0 hx hd
  rw [← tab_get, h] at hf
  cases hf
  obtain ⟨d, hd1, hd2⟩ := polyEval_ok (ctm (fun j => xl.getD j default) (fun j => yl.getD j default) n yl.length) yl.length h0 (xl.getD m default)
  refine ⟨d, hd1, ?_⟩
  rw [hd2]
  have hD : 0 ≤ D := (abs_nonneg _).trans (hdist m m hm hm)
  exact poly_residual (fun j => valAt xl j) yl.length hd
    (fun a s => (cdd (fun j => xl.getD j default) (fun j => yl.getD j default) n a s).val)
    (fun i j => (cnb (fun j => xl.getD j default) n i j).val)
    (fun i j => (ctm (fun j => xl.getD j default) (fun j => yl.getD j default) n i j).val)
    ε η D hε hη hD hdist hT
    (by intro j; rw [cnb]; split_ifs <;> simp)
    (by intro i; rw [cnb, val_mul, val_neg]; rfl)
    (cnb_hi _ n) hN
    (by intro j; rw [ctm, val_zero])
    (by
      intro i j
      rw [ctm, val_add]
      have := hP i j
      rw [show ∀ a b c : ℚ, a + b - (a + c) = b - c by intros; ring]
      exact this) m hm

/-- A bound on the computed differences of order `s` when the ordinates are at most `Y` and the distances at least `δ`. -/
def ddGrowth (Y δ : ℚ) (n : ℕ) : ℕ → ℚ
  | 0 => Y
  | s + 1 => (1 + 1 / 10 ^ 99) * (2 * ddGrowth Y δ n s / δ) + 1 / 2 / 10 ^ n

theorem cdd_bound (x y : ℕ → Dec) (k n : ℕ) (Y δ : ℚ) (hδ : 0 < δ) (hy : ∀ j, j < k → |(y j).val| ≤ Y)
    (hx : ∀ i j, i < j → j < k → δ ≤ |(x i).val - (x j).val|) :
    ∀ s a, a + s < k → |(cdd x y n a s).val| ≤ ddGrowth Y δ n s := by
  intro s
  induction s with
  | zero => intro a ha; rw [cdd, ddGrowth]; exact hy a (by omega)
  | succ s ih =>
    intro a ha
    rw [cdd, ddGrowth]
    have hsep := hx a (a + s + 1) (by omega) (by omega)
    have hne : (x (a + s + 1) - x a).val ≠ 0 := by
      rw [val_sub]
      intro h0
      rw [abs_sub_comm, h0] at hsep
      simp at hsep
      linarith
    obtain ⟨q, hq, he⟩ := (Dec.div_spec (cdd x y n (a + 1) s - cdd x y n a s) (x (a + s + 1) - x a)).2 hne
    have e : quot (cdd x y n (a + 1) s - cdd x y n a s) (x (a + s + 1) - x a) = q := by unfold quot; rw [hq]
    rw [e]
    have hr := round_err (x := q) (n := n) (by omega)
    have hw : (10 : ℚ) ^ (-(n : Int)) = 1 / 10 ^ n := by rw [zpow_neg, zpow_natCast, one_div]
    rw [hw] at hr
    have hz : |(cdd x y n (a + 1) s - cdd x y n a s).val / (x (a + s + 1) - x a).val| ≤ 2 * ddGrowth Y δ n s / δ := by
      rw [abs_div, val_sub, val_sub, abs_sub_comm (x (a + s + 1)).val]
      have h1 := abs_sub (cdd x y n (a + 1) s).val (cdd x y n a s).val
      have h2 := ih (a + 1) (by omega)
      have h3 := ih a (by omega)
      apply div_le_div₀ _ _ hδ hsep
      · have := abs_nonneg (cdd x y n a s).val; linarith
      · linarith
    generalize (cdd x y n (a + 1) s - cdd x y n a s).val / (x (a + s + 1) - x a).val = z at *
    have hε : divEps ≤ 1 / 10 ^ 99 := by norm_num [divEps]
    have h4 : divEps * |z| ≤ 1 / 10 ^ 99 * |z| := mul_le_mul_of_nonneg_right hε (abs_nonneg z)
    have h5 : |q.val| ≤ |q.val - z| + |z| := by simpa using abs_add_le (q.val - z) z
    have h6 : |(round q n).val| ≤ |(round q n).val - q.val| + |q.val| := by simpa using abs_add_le ((round q n).val - q.val) q.val
    have h7 : (1 + 1 / 10 ^ 99) * |z| ≤ (1 + 1 / 10 ^ 99) * (2 * ddGrowth Y δ n s / δ) := mul_le_mul_of_nonneg_left hz (by positivity)
    have e8 : (1 : ℚ) / 2 / 10 ^ n = 1 / 2 * (1 / 10 ^ n) := by ring
    rw [e8]
    linarith

/-- The residual when the computed differences are at most `M`. -/
theorem residual_of_bound (xl yl : List Dec) (n : ℕ) (hg : GoodPoints xl yl) (D M : ℚ)
    (hD : ∀ i j, i < yl.length → j < yl.length → |valAt xl i - valAt xl j| ≤ D)
    (hb : ∀ s a, a + s < yl.length → |(cdd (fun j => xl.getD j default) (fun j => yl.getD j default) n a s).val| ≤ M) :
    ∃ t, fromPoints xl yl n = .ok t ∧ ∀ m, m < yl.length → ∃ d, polyEval t (xl.getD m default) = .ok d ∧
      |d.val - valAt yl m| ≤ (1 / 2 / 10 ^ n + (M + 1) / 10 ^ 99) * ((1 + D) ^ m - 1) +
        1 / 2 / 10 ^ n * (∑ j ∈ Finset.range yl.length, |valAt xl m| ^ j) *
          ∑ i ∈ Finset.range yl.length, (1 + M * ∑ l ∈ Finset.range i, D ^ l) := by
  obtain ⟨t, ht⟩ := (C35_returns_iff xl yl n).2 hg
  refine ⟨t, ht, ?_⟩
  intro m hm
  set x := fun j => xl.getD j default with hx
  set y := fun j => yl.getD j default with hy
  have hw : (10 : ℚ) ^ (-(n : Int)) = 1 / 10 ^ n := by rw [zpow_neg, zpow_natCast, one_div]
  have hM0 : 0 ≤ M := (abs_nonneg _).trans (hb 0 m (by omega))
  have hη : ∀ d : Dec, |(round d n).val - d.val| ≤ 1 / 2 / 10 ^ n := by
    intro d
    have hr := round_err (x := d) (n := n) (by omega)
    rw [hw] at hr
    calc _ ≤ _ := hr
      _ = _ := by ring
  have hp1 : (1 : ℚ) / 2 / 10 ^ n ≤ 1 / 2 := by
    rw [div_le_iff₀ (by positivity)]
    have : (1 : ℚ) ≤ 10 ^ n := one_le_pow₀ (by norm_num)
    linarith
  have hD0 : 0 ≤ D := (abs_nonneg _).trans (hD m m hm hm)
  obtain ⟨d, hd1, hd2⟩ := interp_residual xl yl n t ht (1 / 2 / 10 ^ n + (M + 1) / 10 ^ 99) (1 / 2 / 10 ^ n) D (by positivity) (by positivity) hD
    (by
      intro a s has
      have hne : (x (a + s + 1) - x a).val ≠ 0 := by
        rw [val_sub, sub_ne_zero]
        exact (hg.2.2 a (a + s + 1) (by omega) has).symm
      have h1 := hη (quot (cdd x y n (a + 1) s - cdd x y n a s) (x (a + s + 1) - x a))
      have h2 := hb (s + 1) a (by omega)
      rw [cdd] at h2
      have h4 : |(quot (cdd x y n (a + 1) s - cdd x y n a s) (x (a + s + 1) - x a)).val| ≤ M + 1 := by
        have h5 := abs_sub_abs_le_abs_sub (quot (cdd x y n (a + 1) s - cdd x y n a s) (x (a + s + 1) - x a)).val
          (round (quot (cdd x y n (a + 1) s - cdd x y n a s) (x (a + s + 1) - x a)) n).val
        rw [abs_sub_comm] at h5
        linarith
      have h6 := quot_err _ _ hne _ h4
      rw [val_sub, val_sub] at h6
      rw [cdd]
      exact (abs_sub_le _ _ _).trans (add_le_add h1 h6))
    (by
      intro i j
      rw [cnb]
      have := hη (cnb x n i (j + 1) * -x i + cnb x n i j)
      rw [val_add, val_mul, val_neg] at this
      exact this)
    (by
      intro i j
      have := hη (cnb x n i j * cdd x y n 0 i)
      rw [val_mul] at this
      exact this) m hm
  refine ⟨d, hd1, hd2.trans ?_⟩
  gcongr with i hi
  · exact hb i 0 (by simpa using hi)

/-- **C35** For all good points the polynomial built at `n` digits misses each sample by at most an explicit multiple of
`10^-n` (plus the error `10^-99` of the division), depending only on the points: `D` bounds their distances from above,
`δ` from below, `Y` bounds the ordinates, and `M` the growth of the differences that `Y` and `δ` allow. -/
theorem C35_residual (xl yl : List Dec) (n : ℕ) (hg : GoodPoints xl yl) (D δ Y M : ℚ) (hδ : 0 < δ)
    (hD : ∀ i j, i < yl.length → j < yl.length → |valAt xl i - valAt xl j| ≤ D)
    (hsep : ∀ i j, i < j → j < yl.length → δ ≤ |valAt xl i - valAt xl j|)
    (hY : ∀ j, j < yl.length → |valAt yl j| ≤ Y) (hM : ∀ s, s < yl.length → ddGrowth Y δ n s ≤ M) :
    ∃ t, fromPoints xl yl n = .ok t ∧ ∀ m, m < yl.length → ∃ d, polyEval t (xl.getD m default) = .ok d ∧
      |d.val - valAt yl m| ≤ (1 / 2 / 10 ^ n + (M + 1) / 10 ^ 99) * ((1 + D) ^ m - 1) +
        1 / 2 / 10 ^ n * (∑ j ∈ Finset.range yl.length, |valAt xl m| ^ j) *
          ∑ i ∈ Finset.range yl.length, (1 + M * ∑ l ∈ Finset.range i, D ^ l) :=
  residual_of_bound xl yl n hg D M hD fun s a has => (cdd_bound _ _ yl.length n Y δ hδ hY hsep s a has).trans (hM s (by omega))

/-- **C35** When no division and no rounding loses digits the polynomial passes through every sample exactly. -/
theorem C35_lossless (xl yl : List Dec) (n : Int) (t : List Dec) (h : fromPoints xl yl n = .ok t)
    (hT : ∀ a s, a + s + 1 < yl.length →
      (cdd (fun j => xl.getD j default) (fun j => yl.getD j default) n a (s + 1)).val =
        ((cdd (fun j => xl.getD j default) (fun j => yl.getD j default) n (a + 1) s).val -
          (cdd (fun j => xl.getD j default) (fun j => yl.getD j default) n a s).val) / (valAt xl (a + s + 1) - valAt xl a))
    (hN : ∀ i j, (cnb (fun j => xl.getD j default) n (i + 1) (j + 1)).val =
      (cnb (fun j => xl.getD j default) n i (j + 1)).val * -valAt xl i + (cnb (fun j => xl.getD j default) n i j).val)
    (hP : ∀ i j, (round (cnb (fun j => xl.getD j default) n i j *
      cdd (fun j => xl.getD j default) (fun j => yl.getD j default) n 0 i) n).val =
      (cnb (fun j => xl.getD j default) n i j).val * (cdd (fun j => xl.getD j default) (fun j => yl.getD j default) n 0 i).val)
    (m : ℕ) (hm : m < yl.length) : ∃ d, polyEval t (xl.getD m default) = .ok d ∧ d.val = valAt yl m := by
  have hDx : ∃ D, ∀ i j, i < yl.length → j < yl.length → |valAt xl i - valAt xl j| ≤ D := by
    refine ⟨∑ i ∈ Finset.range yl.length, ∑ j ∈ Finset.range yl.length, |valAt xl i - valAt xl j|, ?_⟩
    intro i j hi hj
    refine le_trans ?_ (Finset.single_le_sum (f := fun i => ∑ j ∈ Finset.range yl.length, |valAt xl i - valAt xl j|)
      (fun i _ => Finset.sum_nonneg (fun j _ => abs_nonneg _)) (Finset.mem_range.2 hi))
    exact Finset.single_le_sum (f := fun j => |valAt xl i - valAt xl j|) (fun j _ => abs_nonneg _) (Finset.mem_range.2 hj)
  obtain ⟨D, hD⟩ := hDx
  obtain ⟨d, h1, h2⟩ := interp_residual xl yl n t h 0 0 D le_rfl le_rfl hD
    (fun a s has => by rw [hT a s has]; simp) (fun i j => by rw [hN]; simp) (fun i j => by rw [hP]; simp) m hm
  refine ⟨d, h1, ?_⟩
  simp at h2
  linarith

/-- **C35** In particular, for integer abscissae whose exact divided differences are integers below `10^(99-n)`, the
polynomial passes through every sample exactly and its differences are the exact ones. -/
theorem C35_integer_points (xl yl : List Dec) (n : ℕ) (hg : GoodPoints xl yl) (X : ℕ → ℤ) (hX : ∀ j, j < yl.length → valAt xl j = X j)
    (F : ℕ → ℕ → ℤ) (hF : ∀ a s, a + s < yl.length → Dv (valAt xl) a s (valAt yl) = F a s)
    (hsize : ∀ a s, a + s < yl.length → |(F a s : ℚ)| < 10 ^ 99 / 10 ^ n) :
    ∃ t, fromPoints xl yl n = .ok t ∧ ∀ m, m < yl.length → ∃ d, polyEval t (xl.getD m default) = .ok d ∧ d.val = valAt yl m := by
  obtain ⟨t, ht⟩ := (C35_returns_iff xl yl n).2 hg
  refine ⟨t, ht, ?_⟩
  intro m hm
  obtain ⟨h0, hlen, hd⟩ := hg
  -- beyond the last point the tables are irrelevant; use total versions of the abscissae
  set x := fun j => xl.getD j default with hx
  set y := fun j => yl.getD j default with hy
  have hc : ∀ s a, a + s < yl.length → (cdd x y n a s).val = F a s := by
    intro s
    induction s with
    | zero => intro a ha; rw [cdd, ← hF a 0 ha]; rfl
    | succ s ih =>
      intro a ha
      rw [cdd]
      have hne : (x (a + s + 1) - x a).val ≠ 0 := by
        rw [val_sub, sub_ne_zero]
        exact (hd a (a + s + 1) (by omega) (by omega)).symm
      obtain ⟨q, hq, he⟩ := (Dec.div_spec (cdd x y n (a + 1) s - cdd x y n a s) (x (a + s + 1) - x a)).2 hne
      have e : quot (cdd x y n (a + 1) s - cdd x y n a s) (x (a + s + 1) - x a) = q := by unfold quot; rw [hq]
      rw [e]
      have hz : (cdd x y n (a + 1) s - cdd x y n a s).val / (x (a + s + 1) - x a).val = F a (s + 1) := by
        rw [val_sub, val_sub, ih (a + 1) (by omega), ih a (by omega), ← hF (a + 1) s (by omega), ← hF a s (by omega), ← hF a (s + 1) ha]
        rfl
      rw [hz] at he
      have hs := hsize a (s + 1) (by omega)
      have hlt : |q.val - (F a (s + 1) : ℚ)| < 1 / 2 * 10 ^ (-(n : Int)) := by
        refine lt_of_le_of_lt he ?_
        have hε : divEps = 1 / 2 / 10 ^ 99 := by norm_num [divEps]
        rw [hε, zpow_neg, zpow_natCast]
        calc (1 : ℚ) / 2 / 10 ^ 99 * |(F a (s + 1) : ℚ)| < 1 / 2 / 10 ^ 99 * (10 ^ 99 / 10 ^ n) := by
              apply mul_lt_mul_of_pos_left hs; positivity
          _ = 1 / 2 * ((10 : ℚ) ^ n)⁻¹ := by field_simp
      have := Bd.rndAway_add_small (F a (s + 1) : ℚ) (q.val - F a (s + 1)) n
        ⟨F a (s + 1) * 10 ^ n, by
          push_cast
          rw [zpow_neg, zpow_natCast, mul_assoc, mul_inv_cancel₀ (by positivity), mul_one]⟩ hlt
      rw [val_round (by omega)]
      rw [show (F a (s + 1) : ℚ) + (q.val - F a (s + 1)) = q.val by ring] at this
      exact this
  have hcn : ∀ i, i ≤ yl.length → ∀ j, ∃ z : ℤ, (cnb x n i j).val = z := by
    intro i
    induction i with
    | zero => intro _ j; rw [cnb]; split_ifs
              · exact ⟨1, by simp⟩
              · exact ⟨0, by simp⟩
    | succ i ih =>
      intro hi j
      have hxi : (x i).val = X i := hX i (by omega)
      cases j with
      | zero =>
        obtain ⟨z, hz⟩ := ih (by omega) 0
        exact ⟨z * -X i, by rw [cnb, val_mul, val_neg, hz, hxi]; push_cast; rfl⟩
      | succ j =>
        obtain ⟨z1, hz1⟩ := ih (by omega) (j + 1)
        obtain ⟨z0, hz0⟩ := ih (by omega) j
        exact ⟨z1 * -X i + z0, by rw [cnb]; apply round_of_int; rw [val_add, val_mul, val_neg, hz1, hz0, hxi]; push_cast; rfl⟩
  have hcs : ∀ i, i < yl.length → ∀ j, (cnb x n (i + 1) (j + 1)).val = (cnb x n i (j + 1)).val * -(x i).val + (cnb x n i j).val := by
    intro i hi j
    obtain ⟨z1, hz1⟩ := hcn i (by omega) (j + 1)
    obtain ⟨z0, hz0⟩ := hcn i (by omega) j
    have hxi : (x i).val = X i := hX i hi
    rw [cnb, hz1, hz0, hxi]
    have : ((z1 : ℚ) * -(X i : ℚ) + z0) = ((z1 * -X i + z0 : ℤ) : ℚ) := by push_cast; rfl
    rw [this]
    apply round_of_int
    rw [val_add, val_mul, val_neg, hz1, hz0, hxi]; push_cast; rfl
  have hprod : ∀ i, i < yl.length → ∀ j, (round (cnb x n i j * cdd x y n 0 i) n).val = (cnb x n i j).val * (cdd x y n 0 i).val := by
    intro i hi j
    obtain ⟨z, hz⟩ := hcn i (by omega) j
    rw [hz, hc i 0 (by omega)]
    have : ((z : ℚ) * (F 0 i : ℚ)) = ((z * F 0 i : ℤ) : ℚ) := by push_cast; rfl
    rw [this]
    apply round_of_int
    rw [val_mul, hz, hc i 0 (by omega)]; push_cast; rfl
  -- replay the exact argument
  have hf := fromPoints_ok xl x y n yl.length h0 (fun j hj => vget_ok_of xl j (by omega)) hd
  rw [← tab_get, ht] at hf
  cases hf
  obtain ⟨d, hd1, hd2⟩ := polyEval_ok (ctm x y n yl.length) yl.length h0 (xl.getD m default)
  refine ⟨d, hd1, ?_⟩
  rw [hd2]
  -- exact tables that agree with the computed ones up to the last point
  let N : ℕ → ℕ → ℚ := fun i j => Nat.rec (motive := fun _ => ℕ → ℚ) (fun j => if j = 0 then 1 else 0)
    (fun i ih j => match j with | 0 => ih 0 * -valAt xl i | j + 1 => ih (j + 1) * -valAt xl i + ih j) i j
  have hNs0 : ∀ i, N (i + 1) 0 = N i 0 * -valAt xl i := fun i => rfl
  have hNs : ∀ i j, N (i + 1) (j + 1) = N i (j + 1) * -valAt xl i + N i j := fun i j => rfl
  have hNc : ∀ i, i ≤ yl.length → ∀ j, (cnb x n i j).val = N i j := by
    intro i
    induction i with
    | zero => intro _ j; rw [cnb]; show _ = (if j = 0 then (1 : ℚ) else 0); split_ifs <;> simp
    | succ i ih =>
      intro hi j
      cases j with
      | zero => rw [cnb, val_mul, val_neg, ih (by omega), hNs0]; rfl
      | succ j => rw [hcs i (by omega), ih (by omega), ih (by omega), hNs]; rfl
  have hNhi : ∀ i j, i < j → N i j = 0 := by
    intro i
    induction i with
    | zero => intro j hj; show (if j = 0 then (1 : ℚ) else 0) = 0; rw [if_neg (by omega)]
    | succ i ih =>
      intro j hj
      cases j with
      | zero => omega
      | succ j => rw [hNs, ih (j + 1) (by omega), ih j (by omega)]; ring
  let T : ℕ → ℕ → ℚ := fun a s => Dv (valAt xl) a s (valAt yl)
  let P : ℕ → ℕ → ℚ := fun i j => ∑ l ∈ Finset.range i, N l j * T 0 l
  have hPc : ∀ i, i ≤ yl.length → ∀ j, (ctm x y n i j).val = P i j := by
    intro i
    induction i with
    | zero => intro _ j; rw [ctm, val_zero]; simp [P]
    | succ i ih =>
      intro hi j
      rw [ctm, val_add, ih (by omega), hprod i (by omega), hNc i (by omega), hc i 0 (by omega), ← hF 0 i (by omega)]
      simp only [P, Finset.sum_range_succ, T]
  have hDx : ∃ D, ∀ i j, i < yl.length → j < yl.length → |valAt xl i - valAt xl j| ≤ D := by
    refine ⟨∑ i ∈ Finset.range yl.length, ∑ j ∈ Finset.range yl.length, |valAt xl i - valAt xl j|, ?_⟩
    intro i j hi hj
    refine le_trans ?_ (Finset.single_le_sum (f := fun i => ∑ j ∈ Finset.range yl.length, |valAt xl i - valAt xl j|)
      (fun i _ => Finset.sum_nonneg (fun j _ => abs_nonneg _)) (Finset.mem_range.2 hi))
    exact Finset.single_le_sum (f := fun j => |valAt xl i - valAt xl j|) (fun j _ => abs_nonneg _) (Finset.mem_range.2 hj)
  obtain ⟨D, hD⟩ := hDx
  have hres := poly_residual (valAt xl) yl.length hd T N P 0 0 D le_rfl le_rfl ((abs_nonneg _).trans (hD m m hm hm)) hD
    (fun a s _ => by simp [T, Dv]) (fun j => rfl) hNs0 hNhi (fun i j => by rw [hNs]; simp) (fun j => by simp [P])
    (fun i j => by simp [P, Finset.sum_range_succ]) m hm
  rw [Finset.sum_congr rfl (fun j _ => by rw [hPc yl.length le_rfl j])]
  simp only [zero_mul, add_zero, abs_nonpos_iff] at hres
  have : T m 0 = valAt yl m := rfl
  rw [← this]
  exact sub_eq_zero.1 hres

-- the cubic 1 + t³ from four samples
example : fromPoints [⟨0, 0⟩, ⟨1, 0⟩, ⟨2, 0⟩, ⟨3, 0⟩] [⟨1, 0⟩, ⟨2, 0⟩, ⟨9, 0⟩, ⟨28, 0⟩] 5 =
    .ok [⟨1, 0⟩, ⟨0, 0⟩, ⟨0, 0⟩, ⟨1, 0⟩] := by decide +kernel
-- samples with a third of ten: rounding shows
example : fromPoints [⟨1, 0⟩, ⟨2, 0⟩, ⟨3, 0⟩, ⟨4, 0⟩] [⟨6, 0⟩, ⟨9, 0⟩, ⟨2, 0⟩, ⟨5, 0⟩] 5 =
    .ok [⟨-2699998, 5⟩, ⟨5466663, 5⟩, ⟨-2499998, 5⟩, ⟨333333, 5⟩] := by decide +kernel
example : GoodPoints [⟨1, 0⟩, ⟨2, 0⟩, ⟨3, 0⟩] [⟨6, 0⟩, ⟨9, 0⟩, ⟨2, 0⟩] := by
  refine ⟨by decide, by decide, ?_⟩
  intro i j hij hj
  simp only [List.length_cons, List.length_nil] at hj
  have : (i = 0 ∧ j = 1) ∨ (i = 0 ∧ j = 2) ∨ (i = 1 ∧ j = 2) := by omega
  rcases this with ⟨rfl, rfl⟩ | ⟨rfl, rfl⟩ | ⟨rfl, rfl⟩ <;> norm_num [valAt, Dec.val]
-- equal abscissae panic
example : fromPoints [⟨1, 0⟩, ⟨10, 1⟩] [⟨6, 0⟩, ⟨9, 0⟩] 5 = .panic := by decide +kernel

end Verif

import Verif.Lemmas.EncBox

/-!
# The shipped polynomials in float arithmetic, by enclosures
-/

namespace Verif
open Dec Polynomial

/-- The code `p` in the variable `s` computes `f` on `[-W, W]` up to `δ` and up to the error of the enclosure `T`. -/
def EncCode (F : FloatFmt) (s : String) (p : RExpr) (f : ℝ → ℝ) (W δ : ℝ) (T : Enc → Enc) : Prop :=
  ∀ (X : Enc) (x' x : ℝ), X.Of x' x → |x| ≤ W → (T X).ok = true → ∃ y q, (∀ calls env, env [s] = .f x' → p.denote (ieeeInterp F calls) env = .f y) ∧ (T X).Of y q ∧ |q - f x| ≤ δ ∧ F.Repr y

/-- The literals of a box of coefficients. -/
def litBox (ε v : ℚ) (B : List (ℚ × ℚ)) : List Enc := B.map (Enc.lit ε v)

section
variable {b : ChebBudget} {ext : BdExt} {s : ApproxSpec} {lo hi : Dec} {f : ℝ → ℝ} {κ c : ℝ} {fx : FloatExt} {b32 : Bool} {v : ℝ}

theorem litBox_of (hl : RoundedLits fx b32 v) {ε v' : ℚ} (hε : (fmtOf b32).eps = ε) (hv : v ≤ v') {parity : Parity} {N : ℕ} {terms : List Dec} {B : List (ℚ × ℚ)}
    (hB : InBox B parity N terms) (hlen : B.length = N + 1) (hbig : ∀ r ∈ B, |r.1| ≤ 10 ^ 30 ∧ |r.2| ≤ 10 ^ 30) :
    ∀ i ≤ N, parity.keeps i → |(valAt terms i : ℝ)| ≤ 10 ^ 30 ∧ ((litBox ε v' B).getD i ⟨0, 0, 0, false⟩).Of (hl.ieee.coeff (terms.getD i default)) (valAt terms i) ∧
      (fmtOf b32).Repr (hl.ieee.coeff (terms.getD i default)) := by
  intro i hi hk
  obtain ⟨h1, h2⟩ := hB i hi hk
  have hiB : i < B.length := by omega
  have hv0 : (0 : ℝ) ≤ v' := hl.nonneg.trans hv
  have hm : |(valAt terms i : ℝ)| ≤ 10 ^ 30 := by
    have hr : B.getD i (0, 0) ∈ B := by rw [List.getD_eq_getElem _ _ hiB]; exact List.getElem_mem hiB
    obtain ⟨k1, k2⟩ := hbig _ hr
    have k1' : |((B.getD i (0, 0)).1 : ℝ)| ≤ 10 ^ 30 := by exact_mod_cast k1
    have k2' : |((B.getD i (0, 0)).2 : ℝ)| ≤ 10 ^ 30 := by exact_mod_cast k2
    exact abs_le.2 ⟨(abs_le.1 k1').1.trans h1, h2.trans (abs_le.1 k2').2⟩
  refine ⟨hm, ?_⟩
  obtain ⟨z, hz, hc⟩ := hl.coeff (terms.getD i default) hm
  rw [hc]
  have e : (litBox ε v' B).getD i ⟨0, 0, 0, false⟩ = Enc.lit ε v' (B.getD i (0, 0)) := by
    rw [litBox, List.getD_eq_getElem _ _ (by simpa using hiB), List.getElem_map, List.getD_eq_getElem _ _ hiB]
  rw [e]
  exact ⟨Enc.lit_sound (FloatFmt.wide_fmtOf b32) hε h1 h2 (by exact_mod_cast hv0) (hz.trans (mul_le_mul_of_nonneg_right hv (abs_nonneg _))), FloatFmt.rnd_repr _⟩

/-- The shipped code, from bounds of the coefficients. -/
theorem encCode_of_box (hl : RoundedLits fx b32 v) {ε v' : ℚ} (hε : (fmtOf b32).eps = ε) (hv : v ≤ v') {N : ℕ} (hk : shippedTerms s.name b32 = N + 1) (hp : s.parity.accepts (N + 1)) {r : Expr}
    {terms : List Dec} (h1 : approx ext s.target (N + 1) lo hi [s.var] s.parity (configDigits b32) = .ok r) (h2 : mulAddPolynomial terms [s.var] s.parity = .ok r) (h3 : terms.length = N + 1)
    {B : List (ℚ × ℚ)} (hB : InBox B s.parity N terms) (hlen : B.length = N + 1) (hbig : ∀ r ∈ B, |r.1| ≤ 10 ^ 30 ∧ |r.2| ≤ 10 ^ 30) {W δ : ℝ}
    (h4 : ∀ t : ℝ, |t| ≤ W → |∑ i ∈ Finset.range (N + 1), (if s.parity.keeps i then (valAt terms i : ℝ) * t ^ i else 0) - f t| ≤ δ) :
    ∃ e, polynomialCode ext fx b32 s lo hi = .ok e ∧ EncCode (fmtOf b32) s.var e.toR f W δ (polyEnc ε s.parity N (litBox ε v' B)) := by
  have hbox := litBox_of hl hε hv hB hlen hbig
  obtain ⟨r', e, k1, k2, -, k4⟩ := hl.ieee.code_enc terms s.var s.parity N h3 hp (fun i hi hki => (hbox i (by omega) hki).1)
  rw [h2] at k1
  cases k1
  refine ⟨e, ?_, fun X x' x hX hx hok => ?_⟩
  · unfold polynomialCode
    rw [hk, h1, Res.ok_bind, k2]
  · obtain ⟨y, y1, y2, y3⟩ := k4 ε hε _ (fun i hi hki => (hbox i hi hki).2.1) (hbox N le_rfl (keeps_last hp)).2.2 X x' x hX hok
    exact ⟨y, _, y1, y2, h4 x hx, y3⟩

/-- The same for a request with a certificate. -/
theorem ChebBudget.Fits.encCode (h : b.Fits ext s lo hi f κ c) (hb : b.ok) {κ' c' : ℚ × ℚ} {B : List (ℚ × ℚ)} (hB : b.boxOk s.parity κ' c' B) (hlen : B.length = b.N + 1)
    (hbig : ∀ r ∈ B, |r.1| ≤ 10 ^ 30 ∧ |r.2| ≤ 10 ^ 30) (hκ : (κ'.1 : ℝ) ≤ κ ∧ κ ≤ κ'.2) (hc : (c'.1 : ℝ) ≤ c ∧ c ≤ c'.2) (hl : RoundedLits fx b32 v) {ε v' : ℚ}
    (hε : (fmtOf b32).eps = ε) (hv : v ≤ v') (hk : shippedTerms s.name b32 = b.N + 1) (hn : b.n = configDigits b32) :
    ∃ e, polynomialCode ext fx b32 s lo hi = .ok e ∧ EncCode (fmtOf b32) s.var e.toR f b.hi b.ε (polyEnc ε s.parity b.N (litBox ε v' B)) := by
  obtain ⟨r, terms, h1, h2, h3, h4, h5⟩ := h.boxed hb hB hκ hc
  rw [hn] at h1
  exact encCode_of_box hl hε hv hk h.accepts h1 h2 h3 h4 hlen hbig fun t ht => (h5 t ht).1

/-- The same against the interpolant. -/
theorem ChebBudget.Fits.encCode_interpolant (h : b.Fits ext s lo hi f κ c) (hb : b.ok) {κ' c' : ℚ × ℚ} {B : List (ℚ × ℚ)} (hB : b.boxOk s.parity κ' c' B) (hlen : B.length = b.N + 1)
    (hbig : ∀ r ∈ B, |r.1| ≤ 10 ^ 30 ∧ |r.2| ≤ 10 ^ 30) (hκ : (κ'.1 : ℝ) ≤ κ ∧ κ ≤ κ'.2) (hc : (c'.1 : ℝ) ≤ c ∧ c ≤ c'.2) (hl : RoundedLits fx b32 v) {ε v' : ℚ}
    (hε : (fmtOf b32).eps = ε) (hv : v ≤ v') (hk : shippedTerms s.name b32 = b.N + 1) (hn : b.n = configDigits b32) (hpl : ParityList s.parity (monoList b.N b.l)) :
    ∃ e, polynomialCode ext fx b32 s lo hi = .ok e ∧ EncCode (fmtOf b32) s.var e.toR (b.interpolant κ c) b.hi b.residual (polyEnc ε s.parity b.N (litBox ε v' B)) := by
  obtain ⟨r, terms, h1, h2, h3, h4, h5⟩ := h.boxed hb hB hκ hc
  rw [hn] at h1
  exact encCode_of_box hl hε hv hk h.accepts h1 h2 h3 h4 hlen hbig fun t ht => (h5 t ht).2 hpl

end

/-- One of `n` cells of width `h` from `a` on. -/
def cell (a h : ℚ) (i : ℕ) : Enc := ⟨a + i * h, a + (i + 1) * h, 0, true⟩

theorem grid_cover {a h : ℚ} {n : ℕ} (hh : 0 < h) (hn : 0 < n) {x : ℝ} (h1 : (a : ℝ) ≤ x) (h2 : x ≤ a + n * h) : ∃ i ∈ List.range n, (cell a h i).Of x x := by
  have hh' : (0 : ℝ) < h := by exact_mod_cast hh
  obtain ⟨q, hq⟩ : ∃ q, q = (x - a) / h := ⟨_, rfl⟩
  have hq0 : 0 ≤ q := hq ▸ div_nonneg (by linarith) hh'.le
  have hqn : q ≤ n := by rw [hq, div_le_iff₀ hh']; linarith
  have hx : x = a + q * h := by rw [hq]; field_simp; ring
  have mem : ∀ i : ℕ, (i : ℝ) ≤ q → q ≤ i + 1 → (cell a h i).Of x x := by
    intro i h3 h4
    refine ⟨?_, ?_, by simp [cell]⟩
    · simp only [cell]; push_cast; rw [hx]; nlinarith
    · simp only [cell]; push_cast; rw [hx]; nlinarith
  rcases eq_or_lt_of_le hqn with he | he
  · refine ⟨n - 1, List.mem_range.2 (by omega), mem _ ?_ ?_⟩
    · rw [he, Nat.cast_sub hn]; simp
    · rw [he, Nat.cast_sub hn]; simp
  · refine ⟨⌊q⌋₊, List.mem_range.2 ((Nat.floor_lt hq0).2 he), mem _ (Nat.floor_le hq0) (Nat.lt_floor_add_one q).le⟩

end Verif

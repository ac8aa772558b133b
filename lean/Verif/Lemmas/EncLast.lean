import Verif.Lemmas.EncCode

/-!
# The last step of a polynomial in float arithmetic

The enclosure of a whole polynomial bounds the rounding of its lowest coefficient by half a unit.  Here that coefficient is kept as the float it is.
-/

namespace Verif
open Dec Polynomial

theorem horner_foldl (c : ℕ → ℝ) (x : ℝ) (n : ℕ) (p : ℝ) :
    ((List.range n).reverse).foldl (fun acc i => acc * x + c i) p = p * x ^ n + ∑ i ∈ Finset.range n, c i * x ^ i := by
  induction n generalizing p with
  | zero => simp
  | succ n ih =>
    rw [List.range_succ, List.reverse_append, List.reverse_singleton, List.singleton_append, List.foldl_cons, ih, Finset.sum_range_succ]
    ring

/-- The enclosure before the last step. -/
def headEnc (ε : ℚ) (n : ℕ) (box : List Enc) (X : Enc) : Enc :=
  Enc.chain ε X (box.getD (n + 1) ⟨0, 0, 0, false⟩) ((List.range n).reverse.map fun i => box.getD (i + 1) ⟨0, 0, 0, false⟩)

section
variable {fx : FloatExt} {b32 : Bool} {u w : ℝ}

/-- The code of a polynomial with all powers: the value of the higher terms, then one step. -/
theorem LitOk.code_last (h : IeeeOk fx b32 u w) (terms : List Dec) (s : String) (n : ℕ) (hlen : terms.length = n + 2) (hd : ∀ i < terms.length, |(valAt terms i : ℝ)| ≤ 10 ^ 30) :
    ∃ r e, mulAddPolynomial terms [s] .neither = .ok r ∧ useNumberType fx r "decimal" (widthOf b32) = .ok e ∧
      ∀ ε : ℚ, (fmtOf b32).eps = ε → ∀ box : List Enc, (∀ i, 1 ≤ i → i ≤ n + 1 → (box.getD i ⟨0, 0, 0, false⟩).Of (h.coeff (terms.getD i default)) (valAt terms i)) →
      (fmtOf b32).Repr (h.coeff (terms.getD (n + 1) default)) → ∀ (X : Enc) (x' x : ℝ), X.Of x' x → (headEnc ε n box X).ok = true →
      ∃ y q, (headEnc ε n box X).Of y q ∧ q * x + valAt terms 0 = ∑ i ∈ Finset.range (n + 2), (valAt terms i : ℝ) * x ^ i ∧
        ∀ calls env, env [s] = .f x' → e.toR.denote (ieeeInterp (fmtOf b32) calls) env = methIE (fmtOf b32) "mul_add" (.f y) [.f x', .f (h.coeff (terms.getD 0 default))] := by
  have hr := mulAdd_explicit terms s .neither (by omega) trivial
  have hN : terms.length - 1 = n + 1 := by omega
  rw [hN] at hr
  have hidx : chainIdx .neither (n + 1) = (List.range n).reverse.map (· + 1) ++ [0] := by
    rw [chainIdx, List.range_succ_eq_map, List.reverse_cons, List.map_reverse]
  rw [hidx] at hr
  set hi := terms.getD (n + 1) default with hhi
  set cs := (List.range n).reverse.map fun i => terms.getD (i + 1) default with hcs
  have hcs' : ((List.range n).reverse.map (· + 1) ++ [0]).map (fun i => terms.getD i default) = cs ++ [terms.getD 0 default] := by
    rw [hcs, List.map_append, List.map_map]; rfl
  rw [hcs'] at hr
  have hbig : ∀ d ∈ hi :: (cs ++ [terms.getD 0 default]), |(d.val : ℝ)| ≤ 10 ^ 30 := by
    intro d hd'
    rcases List.mem_cons.1 hd' with rfl | hd'
    · exact hd (n + 1) (by omega)
    · rcases List.mem_append.1 hd' with hd' | hd'
      · obtain ⟨i, h1, rfl⟩ := List.mem_map.1 hd'
        have := List.mem_range.1 (List.mem_reverse.1 h1)
        exact hd (i + 1) (by omega)
      · rw [List.mem_singleton] at hd'
        subst hd'
        exact hd 0 (by omega)
  have hpath : (useNumberTypeVisitor fx "decimal" (widthOf b32)).visit (.path [s]) = .ok (.path [s]) := by
    simp only [Visitor.visit, useNumberTypeVisitor]; rfl
  obtain ⟨xt, xs, he, m1, m2⟩ := h.visit_chain (.path [s]) (.path [s]) hpath hi _ hbig
  refine ⟨_, codeChain (.path [s]) xt xs, hr, he, fun ε hε box hbox hrep X x' x hX hok => ?_⟩
  have hcf : List.Forall₂ (fun (e : Enc) d => e.Of (h.coeff d) (d.val : ℝ)) ((List.range n).reverse.map fun i => box.getD (i + 1) ⟨0, 0, 0, false⟩) cs := by
    rw [hcs, List.forall₂_map_left_iff, List.forall₂_map_right_iff, List.forall₂_same]
    intro i hi
    have := List.mem_range.1 (List.mem_reverse.1 hi)
    exact hbox (i + 1) (by omega) (by omega)
  obtain ⟨y, hy1, hy2, -⟩ := Enc.chain_sound (FloatFmt.wide_fmtOf b32) hε hX h.coeff (fun d => (d.val : ℝ)) hcf (hbox (n + 1) (by omega) le_rfl) hrep hok
  refine ⟨y, _, hy2, ?_, fun calls env hx => ?_⟩
  · rw [hcs, List.foldl_map, horner_foldl (fun i => ((terms.getD (i + 1) default).val : ℝ)), Finset.sum_range_succ', Finset.sum_range_succ, add_mul, Finset.sum_mul, add_comm (Finset.sum _ _)]
    simp only [valAt, pow_zero, mul_one]
    congr 1
    have : ∀ i ∈ Finset.range n, ((terms.getD (i + 1) default).val : ℝ) * x ^ (i + 1) = ((terms.getD (i + 1) default).val : ℝ) * x ^ i * x := fun i _ => by ring
    rw [Finset.sum_congr rfl this]
    ring
  · have hx' : (Expr.path [s]).toR.denote (ieeeInterp (fmtOf b32) calls) env = .f x' := hx
    rw [codeChain_ieee m1 m2 hx', List.foldl_append, hy1]
    rfl

end

/-- The shipped code, from bounds of the coefficients, when the polynomial has all powers. -/
theorem ChebBudget.Fits.code_last {b : ChebBudget} {ext : BdExt} {s : ApproxSpec} {lo hi : Dec} {f : ℝ → ℝ} {κ c : ℝ} {fx : FloatExt} {b32 : Bool} {v : ℝ} (h : b.Fits ext s lo hi f κ c) (hb : b.ok)
    {κ' c' : ℚ × ℚ} {B : List (ℚ × ℚ)} (hB : b.boxOk s.parity κ' c' B) (hlen : B.length = b.N + 1)
    (hbig : ∀ r ∈ B, |r.1| ≤ 10 ^ 30 ∧ |r.2| ≤ 10 ^ 30) (hκ : (κ'.1 : ℝ) ≤ κ ∧ κ ≤ κ'.2) (hc : (c'.1 : ℝ) ≤ c ∧ c ≤ c'.2) (hl : RoundedLits fx b32 v) {ε v' : ℚ}
    (hε : (fmtOf b32).eps = ε) (hv : v ≤ v') (hk : shippedTerms s.name b32 = b.N + 1) (hn : b.n = configDigits b32) (hpar : s.parity = .neither) {n : ℕ} (hN : b.N = n + 1) :
    ∃ e a z : _, ∃ a0 : ℝ, polynomialCode ext fx b32 s lo hi = .ok e ∧ ((B.getD 0 (0, 0)).1 : ℝ) ≤ a0 ∧ a0 ≤ (B.getD 0 (0, 0)).2 ∧ a = (fmtOf b32).rnd z ∧ |z - a0| ≤ v * |a0| ∧
      ∀ (X : Enc) (x' x : ℝ), X.Of x' x → |x| ≤ b.hi → (headEnc ε n (litBox ε v' B) X).ok = true →
      ∃ y q, (headEnc ε n (litBox ε v' B) X).Of y q ∧ |q * x + a0 - b.interpolant κ c x| ≤ b.residual ∧
        ∀ calls env, env [s.var] = .f x' → e.toR.denote (ieeeInterp (fmtOf b32) calls) env = methIE (fmtOf b32) "mul_add" (.f y) [.f x', .f a] := by
  obtain ⟨r, terms, h1, h2, h3, h4, h5⟩ := h.boxed hb hB hκ hc
  rw [hn] at h1
  have hbox := litBox_of hl hε hv h4 hlen hbig
  have hkeep : ∀ i, s.parity.keeps i := by rw [hpar]; intro i; trivial
  obtain ⟨r', e, k1, k2, k3⟩ := hl.ieee.code_last terms s.var n (by omega) (fun i hi => (hbox i (by omega) (hkeep i)).1)
  rw [hpar] at h2
  rw [h2] at k1
  cases k1
  obtain ⟨z, z1, z2⟩ := hl.coeff (terms.getD 0 default) (hbox 0 (by omega) (hkeep 0)).1
  refine ⟨e, _, z, valAt terms 0, ?_, (h4 0 (by omega) (hkeep 0)).1, (h4 0 (by omega) (hkeep 0)).2, z2, z1, fun X x' x hX hx hok => ?_⟩
  · unfold polynomialCode
    rw [hk, h1, Res.ok_bind, k2]
  · obtain ⟨y, q, y1, y2, y3⟩ := k3 ε hε _ (fun i _ hi => (hbox i (by omega) (hkeep i)).2.1) (hbox (n + 1) (by omega) (hkeep _)).2.2 X x' x hX hok
    refine ⟨y, q, y1, ?_, y3⟩
    have := (h5 x hx).2 (by rw [hpar]; trivial)
    simp only [hkeep, if_true, hN] at this
    rw [y2]
    exact this

end Verif

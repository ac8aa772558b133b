import Verif.Lemmas.Enc
import Verif.Lemmas.ChebList

/-!
# Enclosures of the polynomials in the code
-/

namespace Verif
open Dec Polynomial

/-! ## Literals -/

/-- The float conversions round: the literal written for a decimal is the float next to a number that differs from the decimal by at most `v` relative. -/
structure RoundedLits (fx : FloatExt) (b32 : Bool) (v : ℝ) : Prop where
  nonneg : 0 ≤ v
  lit : ∀ d : Dec, |(d.val : ℝ)| ≤ 10 ^ 30 → ∃ a b x, ∃ z : ℝ, fx.toF32 d = some a ∧ fx.toF64 d = some b ∧ (if b32 then fx.litF32 a else fx.litF64 b) = .ok x ∧
    |z - d.val| ≤ v * |(d.val : ℝ)| ∧ ∀ I ∈ ieeeInterps b32, ∀ env, x.toR.denote I env = .f ((fmtOf b32).rnd z)

section
variable {fx : FloatExt} {b32 : Bool} {v : ℝ}

theorem RoundedLits.ieee (h : RoundedLits fx b32 v) : IeeeOk fx b32 ((fmtOf b32).eps * (1 + v) + v) ((fmtOf b32).eps * (fmtOf b32).tiny) := by
  have hv := h.nonneg
  have he := FloatFmt.eps_pos (F := fmtOf b32)
  have ht := FloatFmt.tiny_pos (F := fmtOf b32)
  refine ⟨⟨by positivity, by positivity⟩, fun d hd => ?_⟩
  obtain ⟨a, b, x, z, h1, h2, h3, h4, h5⟩ := h.lit d hd
  refine ⟨a, b, x, _, h1, h2, h3, h5, ?_⟩
  have e1 := FloatFmt.rnd_err (F := fmtOf b32) z
  have e2 := abs_add_le (z - d.val) (d.val : ℝ)
  rw [sub_add_cancel] at e2
  have e3 := abs_add_le ((fmtOf b32).rnd z - z) (z - d.val)
  rw [sub_add_sub_cancel] at e3
  have e4 : (fmtOf b32).eps * (|z| + (fmtOf b32).tiny) ≤ (fmtOf b32).eps * ((1 + v) * |(d.val : ℝ)| + (fmtOf b32).tiny) :=
    mul_le_mul_of_nonneg_left (by nlinarith) he.le
  nlinarith

/-- The literals in the code are floats next to numbers close to the decimals. -/
theorem RoundedLits.coeff (h : RoundedLits fx b32 v) (d : Dec) (hd : |(d.val : ℝ)| ≤ 10 ^ 30) : ∃ z : ℝ, |z - d.val| ≤ v * |(d.val : ℝ)| ∧ h.ieee.coeff d = (fmtOf b32).rnd z := by
  have hd' : |((reread d).val : ℝ)| ≤ 10 ^ 30 := by rw [reread_val]; exact hd
  obtain ⟨a, b, x, z, h1, h2, h3, h4, h5⟩ := h.lit (reread d) hd'
  obtain ⟨a', b', x', k1, k2, k3, k4, -⟩ := h.ieee.round_spec (reread d) hd'
  rw [reread_val] at h4
  refine ⟨z, h4, ?_⟩
  rw [h1] at k1
  rw [h2] at k2
  cases k1
  cases k2
  rw [h3] at k3
  cases k3
  have hI : ieeeInterp (fmtOf b32) (fun _ _ => .junk) ∈ ieeeInterps b32 := ⟨_, rfl⟩
  have := (k4 _ hI fun _ => .junk).symm.trans (h5 _ hI fun _ => .junk)
  injection this

/-- The nearest float, and its multiple of the last place. -/
def Enc.floatInt (ε m r : ℚ) : ℤ := ⌊r / (pow2 m * ε) + 1 / 2⌋
def Enc.float (ε m r : ℚ) : ℚ := Enc.floatInt ε m r * (pow2 m * ε)

theorem Enc.float_repr {F : FloatFmt} (hF : F.Wide) {ε : ℚ} (hε : F.eps = ε) {m r : ℚ} (h : |(Enc.floatInt ε m r : ℚ)| * ε ≤ 1) : F.Repr (Enc.float ε m r) := by
  have hb : 100 ≤ F.bias := by
    have h2 : 2 ^ 7 ≤ 2 ^ (F.ebits - 1) := Nat.pow_le_pow_right (by norm_num) (by have := hF.ebits; omega)
    unfold FloatFmt.bias
    omega
  refine ⟨Enc.floatInt ε m r, (Enc.pow2Exp m : ℤ) - 80 + (-(F.mant : ℤ) - 1), ?_, ?_, by omega⟩
  · unfold Enc.float
    push_cast
    rw [Enc.pow2_zpow, ← hε, FloatFmt.eps, ← zpow_add₀ (by norm_num)]
  · have h1 : |(Enc.floatInt ε m r : ℝ)| * F.eps ≤ 1 := by rw [hε]; exact_mod_cast h
    have he : F.eps * 2 ^ (F.mant + 1) = 1 := by
      rw [FloatFmt.eps, ← zpow_natCast, ← zpow_add₀ (by norm_num)]
      simp
    have h2 : |(Enc.floatInt ε m r : ℝ)| ≤ 2 ^ (F.mant + 1) := by
      calc |(Enc.floatInt ε m r : ℝ)| = |(Enc.floatInt ε m r : ℝ)| * F.eps * 2 ^ (F.mant + 1) := by rw [mul_assoc, he, mul_one]
        _ ≤ 1 * 2 ^ (F.mant + 1) := by gcongr
        _ = _ := one_mul _
    exact_mod_cast h2

/-- A literal for a decimal between two numbers: half a unit in the last place, or the distance to a float. -/
def Enc.lit (ε v : ℚ) (r : ℚ × ℚ) : Enc :=
  let m := max |r.1| |r.2|
  let h := pow2 (m * (1 + v)) * ε / 2 + v * m
  ⟨r.1, r.2, min h (if |(Enc.floatInt ε m r.1 : ℚ)| * ε ≤ 1 then max |Enc.float ε m r.1 - r.1| |Enc.float ε m r.1 - r.2| + 2 * (v * m) else h), true⟩

theorem Enc.lit_sound {F : FloatFmt} (hF : F.Wide) {ε : ℚ} (hε : F.eps = ε) {v' : ℚ} {r : ℚ × ℚ} {d z : ℝ} (h1 : (r.1 : ℝ) ≤ d) (h2 : d ≤ r.2) (hv0 : 0 ≤ v') (hz : |z - d| ≤ v' * |d|) :
    (Enc.lit ε v' r).Of (F.rnd z) d := by
  refine ⟨h1, h2, ?_⟩
  simp only [Enc.lit]
  have hv0' : (0 : ℝ) ≤ v' := by exact_mod_cast hv0
  obtain ⟨m, hm⟩ : ∃ m, m = max |r.1| |r.2| := ⟨_, rfl⟩
  rw [← hm]
  have hmd : |d| ≤ m := by
    rw [hm, Rat.cast_max, Rat.cast_abs, Rat.cast_abs]
    exact abs_le_max_abs_abs h1 h2
  have hvm : (v' : ℝ) * |d| ≤ v' * m := mul_le_mul_of_nonneg_left hmd hv0'
  have e3 := abs_add_le (F.rnd z - z) (z - d)
  rw [sub_add_sub_cancel] at e3
  have hh : |F.rnd z - d| ≤ ((pow2 (m * (1 + v')) * ε / 2 + v' * m : ℚ) : ℝ) := by
    have hzm : |z| ≤ ((m * (1 + v') : ℚ) : ℝ) := by
      have := abs_add_le (z - d) d
      rw [sub_add_cancel] at this
      push_cast
      linarith
    have hp : |z| ≤ (pow2 (m * (1 + v')) : ℝ) := hzm.trans (by exact_mod_cast le_pow2 _)
    have hb : 100 ≤ F.bias := by
      have h2 : 2 ^ 7 ≤ 2 ^ (F.ebits - 1) := Nat.pow_le_pow_right (by norm_num) (by have := hF.ebits; omega)
      unfold FloatFmt.bias
      omega
    have h5 : |F.rnd z - z| ≤ (pow2 (m * (1 + v')) : ℝ) * F.eps / 2 := by
      rw [pow2_zpow] at hp ⊢
      exact FloatFmt.rnd_below (by omega) hp
    push_cast
    rw [← hε]
    linarith
  rw [Rat.cast_min]
  refine le_min hh ?_
  split_ifs with hq
  · have h5 := FloatFmt.rnd_nearest z (Enc.float_repr hF hε hq)
    generalize Enc.float ε m r.1 = q at h5
    have h6 : |(q : ℝ) - d| ≤ max |(q : ℝ) - r.1| |(q : ℝ) - r.2| := by
      rw [max_comm]
      exact abs_le_max_abs_abs (by linarith) (by linarith)
    have h7 := abs_sub_abs_le_abs_sub (q - z) (q - d)
    rw [sub_sub_sub_cancel_left, abs_sub_comm d z] at h7
    push_cast
    linarith
  · exact hh

end

/-! ## The polynomial -/

/-- The coefficients in the order of the chain, after the highest. -/
def chainIdx : Parity → ℕ → List ℕ
  | .odd, n => (stepTwo 1 n).reverse
  | .even, n => (stepTwo 0 n).reverse
  | .neither, n => (List.range n).reverse

def Parity.sq : Parity → Bool
  | .neither => false
  | _ => true
def Parity.od : Parity → Bool
  | .odd => true
  | _ => false

theorem chainIdx_mem (parity : Parity) (n : ℕ) : ∀ i ∈ chainIdx parity n, i < n ∧ parity.keeps i := by
  intro i hi
  cases parity
  · simp only [chainIdx, stepTwo, List.mem_reverse, List.mem_map, List.mem_range] at hi
    obtain ⟨j, hj, rfl⟩ := hi
    exact ⟨by omega, by show _ % 2 = 1; omega⟩
  · simp only [chainIdx, stepTwo, List.mem_reverse, List.mem_map, List.mem_range] at hi
    obtain ⟨j, hj, rfl⟩ := hi
    exact ⟨by omega, by show _ % 2 = 0; omega⟩
  · simp only [chainIdx, List.mem_reverse, List.mem_range] at hi
    exact ⟨hi, trivial⟩

/-- The parts of the expression. -/
theorem mulAdd_explicit (terms : List Dec) (s : String) (parity : Parity) (h0 : 0 < terms.length) (hp : parity.accepts terms.length) :
    mulAddPolynomial terms [s] parity =
      .ok (if parity.od then .binary (mulAddChain (chainArg s parity.sq) (terms.getD (terms.length - 1) default) ((chainIdx parity (terms.length - 1)).map fun i => terms.getD i default)) .mul (.path [s])
        else mulAddChain (chainArg s parity.sq) (terms.getD (terms.length - 1) default) ((chainIdx parity (terms.length - 1)).map fun i => terms.getD i default)) := by
  have hidx := chainIdx_mem parity (terms.length - 1)
  unfold mulAddPolynomial
  rw [if_neg (by omega)]
  simp only []
  rw [vget_ok_of terms _ (by omega), Res.ok_bind]
  cases parity with
  | odd =>
    have hk : terms.length % 2 = 0 := hp
    simp only [chainIdx] at hidx ⊢
    rw [if_neg (by omega), vgets_ok _ _ (fun i hi => by have := (hidx i hi).1; omega), Res.ok_bind]
    rfl
  | even =>
    have hk : terms.length % 2 = 1 := hp
    simp only [chainIdx] at hidx ⊢
    rw [if_neg (by omega), vgets_ok _ _ (fun i hi => by have := (hidx i hi).1; omega), Res.ok_bind]
    rfl
  | neither =>
    simp only [chainIdx] at hidx ⊢
    rw [vgets_ok _ _ (fun i hi => by have := (hidx i hi).1; omega), Res.ok_bind]
    rfl

theorem keeps_last {parity : Parity} {N : ℕ} (hp : parity.accepts (N + 1)) : parity.keeps N := by
  cases parity
  · have : (N + 1) % 2 = 0 := hp
    show N % 2 = 1; omega
  · have : (N + 1) % 2 = 1 := hp
    show N % 2 = 0; omega
  · trivial

/-- The enclosure of the polynomial, given one for each coefficient and one for the argument. -/
def polyEnc (ε : ℚ) (parity : Parity) (N : ℕ) (box : List Enc) (X : Enc) : Enc :=
  let U := if parity.sq then (X.mul X).round ε else X
  let P := Enc.chain ε U (box.getD N ⟨0, 0, 0, false⟩) ((chainIdx parity N).map fun i => box.getD i ⟨0, 0, 0, false⟩)
  let R := if parity.od then (P.mul X).round ε else P
  ⟨R.lo, R.hi, R.err, R.ok && U.ok⟩

section
variable {fx : FloatExt} {b32 : Bool} {u w : ℝ}

/-- The code of the polynomial in float arithmetic. -/
theorem LitOk.code_enc (h : IeeeOk fx b32 u w) (terms : List Dec) (s : String) (parity : Parity) (N : ℕ) (hlen : terms.length = N + 1) (hp : parity.accepts (N + 1))
    (hd : ∀ i < terms.length, parity.keeps i → |(valAt terms i : ℝ)| ≤ 10 ^ 30) :
    ∃ r e, mulAddPolynomial terms [s] parity = .ok r ∧ useNumberType fx r "decimal" (widthOf b32) = .ok e ∧
      (1 ≤ N → ∀ calls, SpecialIE (ieeeInterp (fmtOf b32) calls) s e.toR) ∧
      ∀ ε : ℚ, (fmtOf b32).eps = ε → ∀ box : List Enc, (∀ i ≤ N, parity.keeps i → (box.getD i ⟨0, 0, 0, false⟩).Of (h.coeff (terms.getD i default)) (valAt terms i)) →
      (fmtOf b32).Repr (h.coeff (terms.getD N default)) → ∀ (X : Enc) (x' x : ℝ), X.Of x' x → (polyEnc ε parity N box X).ok = true → ∃ y, (∀ calls env, env [s] = .f x' → e.toR.denote (ieeeInterp (fmtOf b32) calls) env = .f y) ∧
        (polyEnc ε parity N box X).Of y (∑ i ∈ Finset.range (N + 1), if parity.keeps i then (valAt terms i : ℝ) * x ^ i else 0) ∧ (fmtOf b32).Repr y := by
  have hp' : parity.accepts terms.length := by rw [hlen]; exact hp
  have hr := mulAdd_explicit terms s parity (by omega) hp'
  have hN : terms.length - 1 = N := by omega
  rw [hN] at hr
  set hi := terms.getD N default with hhi
  set cs := (chainIdx parity N).map fun i => terms.getD i default with hcs
  have hidx := chainIdx_mem parity N
  have hbig : ∀ d ∈ hi :: cs, |(d.val : ℝ)| ≤ 10 ^ 30 := by
    intro d hd'
    rcases List.mem_cons.1 hd' with rfl | hd'
    · exact hd N (by omega) (keeps_last hp)
    · obtain ⟨i, h1, rfl⟩ := List.mem_map.1 hd'
      exact hd i (by have := (hidx i h1).1; omega) (hidx i h1).2
  have hpath : (useNumberTypeVisitor fx "decimal" (widthOf b32)).visit (.path [s]) = .ok (.path [s]) := by
    simp only [Visitor.visit, useNumberTypeVisitor]; rfl
  have hvv : (useNumberTypeVisitor fx "decimal" (widthOf b32)).visit (chainArg s parity.sq) = .ok (chainArg s parity.sq) := by
    cases parity.sq
    · exact hpath
    · show (useNumberTypeVisitor fx "decimal" (widthOf b32)).visit (.binary (.path [s]) .mul (.path [s])) = _
      rw [Visitor.visit_binary _ rfl rfl, hpath]; rfl
  obtain ⟨xt, xs, he, m1, m2⟩ := h.visit_chain _ _ hvv hi cs hbig
  have hval : chainVal (fun d => (d.val : ℝ)) parity.sq parity.od hi cs = fun t => ∑ i ∈ Finset.range (N + 1), if parity.keeps i then (valAt terms i : ℝ) * t ^ i else 0 := by
    funext t
    obtain ⟨r', hr', hden⟩ := chain_poly_value (polyInterp_chain (fun d => (d.val : ℝ)) t) terms [s] parity (by omega) hp'
    rw [hr] at hr'
    injection hr' with hr'
    subst hr'
    rw [show (polyInterp (fun d => (d.val : ℝ)) t).var [s] = t from rfl, hlen] at hden
    simp only [reread_val] at hden
    have harg : (chainArg s parity.sq).denote (polyInterp (fun d => (d.val : ℝ)) t) = if parity.sq then t * t else t := by
      cases parity.sq <;> simp only [chainArg, Expr.denote, if_true, if_false, Bool.false_eq_true] <;> rfl
    unfold chainVal valAt
    rw [← hden]
    cases parity.od
    · simp only [if_false, Bool.false_eq_true, mul_one]
      rw [denote_chain (polyInterp_chain (fun d => (d.val : ℝ)) t), harg]
      simp only [reread_val]
    · simp only [if_true]
      rw [Expr.denote, denote_chain (polyInterp_chain (fun d => (d.val : ℝ)) t), harg]
      simp only [reread_val]
      rfl
  refine ⟨_, if parity.od then .binary (codeChain (chainArg s parity.sq) xt xs) .mul (.path [s]) else codeChain (chainArg s parity.sq) xt xs, hr, ?_, ?_⟩
  · unfold useNumberType
    cases parity.od
    · exact he
    · show (useNumberTypeVisitor fx "decimal" (widthOf b32)).visit (.binary _ .mul _) = _
      rw [Visitor.visit_binary _ rfl rfl, he, hpath]; rfl
  refine ⟨fun hN1 calls => code_special m1 m2 ?_, ?_⟩
  · have hl : xs.length = (chainIdx parity N).length := by rw [m2.length_eq, hcs, List.length_map]
    cases parity
    · exact .inr rfl
    · left
      have : (N + 1) % 2 = 1 := hp
      rw [hl, chainIdx, List.length_reverse, stepTwo, List.length_map, List.length_range]; omega
    · left
      rw [hl, chainIdx, List.length_reverse, List.length_range]; omega
  intro ε hε box hbox hrep X x' x hX hok
  have hF := FloatFmt.wide_fmtOf b32
  have hcf : List.Forall₂ (fun (e : Enc) d => e.Of (h.coeff d) (d.val : ℝ)) ((chainIdx parity N).map fun i => box.getD i ⟨0, 0, 0, false⟩) cs := by
    rw [hcs, List.forall₂_map_left_iff, List.forall₂_map_right_iff, List.forall₂_same]
    intro i hi
    have := hidx i hi
    exact hbox i this.1.le this.2
  have htop := hbox N le_rfl (keeps_last hp)
  obtain ⟨U, hUdef⟩ : ∃ U, U = if parity.sq then (X.mul X).round ε else X := ⟨_, rfl⟩
  obtain ⟨P, hPdef⟩ : ∃ P, P = Enc.chain ε U (box.getD N ⟨0, 0, 0, false⟩) ((chainIdx parity N).map fun i => box.getD i ⟨0, 0, 0, false⟩) := ⟨_, rfl⟩
  have hpe : polyEnc ε parity N box X = ⟨(if parity.od then (P.mul X).round ε else P).lo, (if parity.od then (P.mul X).round ε else P).hi,
      (if parity.od then (P.mul X).round ε else P).err, (if parity.od then (P.mul X).round ε else P).ok && U.ok⟩ := by
    rw [hPdef, hUdef]; rfl
  rw [hpe] at hok ⊢
  simp only [Bool.and_eq_true] at hok
  obtain ⟨hok1, hok2⟩ := hok
  have hU : ∃ U', (∀ calls env, env [s] = .f x' → (chainArg s parity.sq).toR.denote (ieeeInterp (fmtOf b32) calls) env = .f U') ∧ U.Of U' (if parity.sq then x * x else x) := by
    generalize parity.sq = q at hUdef
    cases q
    · exact ⟨x', fun calls env hx => hx, by rw [hUdef]; exact hX⟩
    · simp only [if_true] at hUdef
      subst hUdef
      obtain ⟨r1, r2⟩ := (hX.mul hX).round hF hε hok2
      exact ⟨_, fun calls env hx => by simp only [chainArg, if_true, Expr.toR, RExpr.denote, hx, ieee_bin, binIE_mul, r1], r2⟩
  obtain ⟨U', hU1, hU2⟩ := hU
  have hPok : P.ok = true := by
    revert hok1
    cases parity.od
    · exact id
    · intro h1
      have := Enc.round_ok h1
      simp only [Enc.mul, Bool.and_eq_true] at this
      exact this.1
  rw [hPdef] at hPok
  obtain ⟨y, hy1, hy2, hy3⟩ := Enc.chain_sound hF hε hU2 h.coeff (fun d => (d.val : ℝ)) hcf htop hrep hPok
  have hv := congrFun hval x
  rw [← hv]
  unfold chainVal
  rw [← hPdef] at hy2
  have hc : ∀ calls env, env [s] = .f x' → (codeChain (chainArg s parity.sq) xt xs).toR.denote (ieeeInterp (fmtOf b32) calls) env = .f y := by
    intro calls env hx
    rw [codeChain_ieee m1 m2 (hU1 calls env hx)]
    exact hy1
  revert hok1
  cases parity.od
  · intro _
    simp only [if_false, Bool.false_eq_true, mul_one]
    exact ⟨y, hc, hy2, hy3⟩
  · intro hok1
    simp only [if_true] at hok1 ⊢
    obtain ⟨r1, r2⟩ := (hy2.mul hX).round hF hε hok1
    refine ⟨_, fun calls env hx => ?_, r2, FloatFmt.rnd_repr _⟩
    simp only [Expr.toR, RExpr.denote, hc calls env hx, hx, ieee_bin, binIE_mul, r1]

end
end Verif

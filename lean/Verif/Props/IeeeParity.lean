import Verif.Lemmas.EncPoly
import Verif.Props.IeeeTrig

/-!
# C107: in float arithmetic the code of an odd polynomial is exactly odd, that of an even one exactly even

The chain of `mul_add` only sees the square of the argument, which does not depend on the sign, and rounding is symmetric.
-/

namespace Verif
open Dec

theorem FloatFmt.rne_neg {F : FloatFmt} {x : ℝ} : F.rne (-x) = unRV .neg (F.rne x) := by
  unfold FloatFmt.rne
  rw [FloatFmt.rnd_neg, abs_neg]
  split_ifs with h
  · rfl
  · have hx : x ≠ 0 := by
      rintro rfl
      refine h ?_
      rw [FloatFmt.rnd_of_repr FloatFmt.repr_zero, abs_zero]
      positivity
    show RV.inf _ = RV.inf _
    congr 1
    rcases lt_or_gt_of_ne hx with h0 | h0
    · simp [h0, h0.le]
    · simp [h0, h0.le]

/-- The sign of a product of floats. -/
theorem mulIE_neg {F : FloatFmt} {a b : RV} (ha : a.IsFloat) (hb : b.IsFloat) : binIE F .mul a (unRV .neg b) = unRV .neg (binIE F .mul a b) := by
  have k : ∀ (s : Bool) (y : ℝ), y ≠ 0 → (s ^^ decide (-y < 0)) = !(s ^^ decide (y < 0)) := by
    intro s y hy
    rcases lt_or_gt_of_ne hy with h0 | h0
    · cases s <;> simp [h0, h0.le]
    · cases s <;> simp [h0, h0.le]
  cases ha with
  | f x =>
    cases hb with
    | f y => show F.rne (x * -y) = _; rw [mul_neg, FloatFmt.rne_neg]; rfl
    | inf s =>
      simp only [binIE, mulIE, unRV]
      split_ifs
      · rfl
      · cases s <;> simp [unRV]
    | nan => rfl
  | inf s =>
    cases hb with
    | f y =>
      simp only [binIE, mulIE, unRV, neg_eq_zero]
      split_ifs with h
      · rfl
      · rw [k s y h]
    | inf t => simp only [binIE, mulIE, unRV]; cases s <;> cases t <;> rfl
    | nan => rfl
  | nan => cases hb <;> rfl

/-- The square does not depend on the sign. -/
theorem square_neg {F : FloatFmt} {a : RV} (ha : a.IsFloat) : binIE F .mul (unRV .neg a) (unRV .neg a) = binIE F .mul a a := by
  cases ha with
  | f x => show F.rne (-x * -x) = F.rne (x * x); rw [neg_mul_neg]
  | inf s => cases s <;> rfl
  | nan => rfl

section
variable {fx : FloatExt} {b32 : Bool} {u w : ℝ}

/-- The chain over the square of the variable, at an argument and at its opposite. -/
theorem chain_even {h : IeeeOk fx b32 u w} {calls : String → List RV → RV} {s : String} {xt : Expr} {xs : List Expr} {hi : Dec} {cs : List Dec}
    (h1 : h.Means xt hi) (h2 : List.Forall₂ h.Means xs cs) {env env' : Name → RV} (he : (env [s]).IsFloat) (hn : env' [s] = unRV .neg (env [s])) :
    (codeChain (chainArg s true) xt xs).toR.denote (ieeeInterp (fmtOf b32) calls) env' = (codeChain (chainArg s true) xt xs).toR.denote (ieeeInterp (fmtOf b32) calls) env ∧
      ((codeChain (chainArg s true) xt xs).toR.denote (ieeeInterp (fmtOf b32) calls) env).IsFloat := by
  have hI : ieeeInterp (fmtOf b32) calls ∈ ieeeInterps b32 := ⟨calls, rfl⟩
  have hbase : ∀ env, (Expr.paren xt).toR.denote (ieeeInterp (fmtOf b32) calls) env = .f (h.coeff hi) := by
    intro env
    simp only [Expr.toR, RExpr.denote]; exact h1 _ hI env
  have hsq : ∀ env : Name → RV, (chainArg s true).toR.denote (ieeeInterp (fmtOf b32) calls) env = binIE (fmtOf b32) .mul (env [s]) (env [s]) := fun env => by
    simp only [chainArg, if_true, Expr.toR, RExpr.denote]; rfl
  have hsn : (chainArg s true).toR.denote (ieeeInterp (fmtOf b32) calls) env' = (chainArg s true).toR.denote (ieeeInterp (fmtOf b32) calls) env := by
    rw [hsq, hsq, hn, square_neg he]
  have step : ∀ e : Expr, e.toR.denote (ieeeInterp (fmtOf b32) calls) env' = e.toR.denote (ieeeInterp (fmtOf b32) calls) env → (e.toR.denote (ieeeInterp (fmtOf b32) calls) env).IsFloat →
      ∀ ys ds, List.Forall₂ h.Means ys ds →
      (ys.foldl (fun acc t => Expr.methodCall acc "mul_add" [chainArg s true, t]) e).toR.denote (ieeeInterp (fmtOf b32) calls) env' =
        (ys.foldl (fun acc t => Expr.methodCall acc "mul_add" [chainArg s true, t]) e).toR.denote (ieeeInterp (fmtOf b32) calls) env ∧
      ((ys.foldl (fun acc t => Expr.methodCall acc "mul_add" [chainArg s true, t]) e).toR.denote (ieeeInterp (fmtOf b32) calls) env).IsFloat := by
    intro e k1 k2 ys ds hyd
    induction hyd generalizing e with
    | nil => exact ⟨k1, k2⟩
    | @cons y d _ _ h3 _ ih =>
      rw [List.foldl_cons]
      have hm : ∀ env, (Expr.methodCall e "mul_add" [chainArg s true, y]).toR.denote (ieeeInterp (fmtOf b32) calls) env =
          methIE (fmtOf b32) "mul_add" (e.toR.denote (ieeeInterp (fmtOf b32) calls) env) [(chainArg s true).toR.denote (ieeeInterp (fmtOf b32) calls) env, .f (h.coeff d)] := fun env => by
        rw [← h3 _ hI env]; rfl
      refine ih _ ?_ ?_
      · rw [hm, hm, hsn, k1]
      · rw [hm, hsq]
        exact mul_addIE_isFloat k2 (mulIE_isFloat he he) (.f _)
  exact step _ (by rw [hbase, hbase]) (by rw [hbase]; constructor) _ _ h2

/-- **C107** The code of a polynomial with a parity, in float arithmetic: at the opposite argument the code of an odd polynomial gives the opposite result, and that of an even polynomial the
same result, for every float, infinity and NaN. -/
theorem C107_parity (h : IeeeOk fx b32 u w) (terms : List Dec) (s : String) (parity : Parity) (hlen : 1 ≤ terms.length) (hp : parity.accepts terms.length)
    (hd : ∀ i < terms.length, parity.keeps i → |(valAt terms i : ℝ)| ≤ 10 ^ 30) :
    ∃ r e, mulAddPolynomial terms [s] parity = .ok r ∧ useNumberType fx r "decimal" (widthOf b32) = .ok e ∧
      ∀ (calls : String → List RV → RV) (env env' : Name → RV), (env [s]).IsFloat → env' [s] = unRV .neg (env [s]) →
        (parity = .odd → e.toR.denote (ieeeInterp (fmtOf b32) calls) env' = unRV .neg (e.toR.denote (ieeeInterp (fmtOf b32) calls) env)) ∧
        (parity = .even → e.toR.denote (ieeeInterp (fmtOf b32) calls) env' = e.toR.denote (ieeeInterp (fmtOf b32) calls) env) := by
  obtain ⟨N, hN⟩ : ∃ N, terms.length = N + 1 := ⟨terms.length - 1, by omega⟩
  have hr := mulAdd_explicit terms s parity (by omega) hp
  rw [show terms.length - 1 = N by omega] at hr
  set hi := terms.getD N default with hhi
  set cs := (chainIdx parity N).map fun i => terms.getD i default with hcs
  have hidx := chainIdx_mem parity N
  have hbig : ∀ d ∈ hi :: cs, |(d.val : ℝ)| ≤ 10 ^ 30 := by
    intro d hd'
    rcases List.mem_cons.1 hd' with rfl | hd'
    · exact hd N (by omega) (keeps_last (by rw [← hN]; exact hp))
    · obtain ⟨i, h1, rfl⟩ := List.mem_map.1 hd'
      exact hd i (by have := (hidx i h1).1; omega) (hidx i h1).2
  have hpath : (useNumberTypeVisitor fx "decimal" (widthOf b32)).visit (.path [s]) = .ok (.path [s]) := by
    simp only [Visitor.visit, useNumberTypeVisitor]; rfl
  have hvv : (useNumberTypeVisitor fx "decimal" (widthOf b32)).visit (chainArg s parity.sq) = .ok (chainArg s parity.sq) := by
    cases parity.sq
    · exact hpath
    · show (useNumberTypeVisitor fx "decimal" (widthOf b32)).visit (.binary (.path [s]) .mul (.path [s])) = _
      rw [Visitor.visit_binary _ rfl rfl, hpath]; rfl
  obtain ⟨xt, xs, he, m1, m2⟩ := h.visit_chain _ _ hvv hi cs hbig
  refine ⟨_, if parity.od then .binary (codeChain (chainArg s parity.sq) xt xs) .mul (.path [s]) else codeChain (chainArg s parity.sq) xt xs, hr, ?_, ?_⟩
  · unfold useNumberType
    cases parity.od
    · exact he
    · show (useNumberTypeVisitor fx "decimal" (widthOf b32)).visit (.binary _ .mul _) = _
      rw [Visitor.visit_binary _ rfl rfl, he, hpath]; rfl
  · intro calls env env' hf hn
    obtain ⟨k1, k2⟩ := chain_even (calls := calls) m1 m2 hf hn
    constructor
    · rintro rfl
      show binIE (fmtOf b32) .mul ((codeChain (chainArg s true) xt xs).toR.denote (ieeeInterp (fmtOf b32) calls) env') (env' [s]) =
        unRV .neg (binIE (fmtOf b32) .mul ((codeChain (chainArg s true) xt xs).toR.denote (ieeeInterp (fmtOf b32) calls) env) (env [s]))
      rw [k1, hn, mulIE_neg k2 hf]
    · rintro rfl
      exact k1

end

/-- Polynomials with a parity: `x + 2 x³` and `1 + 2 x²`. -/
example : ∃ r e, mulAddPolynomial [⟨0, 0⟩, ⟨1, 0⟩, ⟨0, 0⟩, ⟨2, 0⟩] ["x"] .odd = .ok r ∧ useNumberType wideFx r "decimal" (widthOf true) = .ok e ∧
    e.toR.denote (ieeeInterp .f32 fun _ _ => .junk) (fun _ => .f (-3)) = unRV .neg (e.toR.denote (ieeeInterp .f32 fun _ _ => .junk) fun _ => .f 3) := by
  obtain ⟨r, e, h1, h2, h3⟩ := C107_parity (wideFx_ieee true) [⟨0, 0⟩, ⟨1, 0⟩, ⟨0, 0⟩, ⟨2, 0⟩] "x" .odd (by decide) rfl (by
    intro i hi _
    have : i < 4 := hi
    interval_cases i <;> norm_num [valAt, Dec.val])
  exact ⟨r, e, h1, h2, (h3 _ _ _ (.f _) rfl).1 rfl⟩

example : ∃ r e, mulAddPolynomial [⟨1, 0⟩, ⟨0, 0⟩, ⟨2, 0⟩] ["x"] .even = .ok r ∧ useNumberType wideFx r "decimal" (widthOf true) = .ok e ∧
    e.toR.denote (ieeeInterp .f32 fun _ _ => .junk) (fun _ => .f (-3)) = e.toR.denote (ieeeInterp .f32 fun _ _ => .junk) fun _ => .f 3 := by
  obtain ⟨r, e, h1, h2, h3⟩ := C107_parity (wideFx_ieee true) [⟨1, 0⟩, ⟨0, 0⟩, ⟨2, 0⟩] "x" .even (by decide) rfl (by
    intro i hi _
    have : i < 3 := hi
    interval_cases i <;> norm_num [valAt, Dec.val])
  exact ⟨r, e, h1, h2, (h3 _ _ _ (.f _) rfl).2 rfl⟩

end Verif

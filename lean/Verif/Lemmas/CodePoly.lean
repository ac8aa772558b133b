import Verif.Model.Shipped
import Verif.Props.ApproxSeries
import Verif.Props.GenTrig
import Verif.Props.GenTypes

/-!
# The polynomial as it stands in the generated code

`approx` returns an expression with decimal coefficients and `use_number_type` replaces each of them by a float literal.
-/

namespace Verif
open Dec Polynomial

/-- What is needed of the float conversions: decimals of moderate size are converted and written as an expression whose value, in every
interpretation of `J`, differs by at most `u` relative plus `w` absolute. -/
structure LitOk (fx : FloatExt) (b32 : Bool) (u w : ℝ) (J : Set (RInterp RV)) : Prop where
  nonneg : 0 ≤ u ∧ 0 ≤ w
  lit : ∀ d : Dec, |(d.val : ℝ)| ≤ 10 ^ 30 → ∃ a b x, ∃ q : ℝ, fx.toF32 d = some a ∧ fx.toF64 d = some b ∧
    (if b32 then fx.litF32 a else fx.litF64 b) = .ok x ∧ (∀ I ∈ J, ∀ env, x.toR.denote I env = .f q) ∧
    |q - d.val| ≤ u * |(d.val : ℝ)| + w

/-- The interpretations in exact arithmetic. -/
def exactInterps : Set (RInterp RV) := {I | ∃ F calls, I = realInterp F calls}

/-- The float conversions are good in exact arithmetic. -/
abbrev FloatOk (fx : FloatExt) (b32 : Bool) (u w : ℝ) : Prop := LitOk fx b32 u w exactInterps

/-- A decimal after printing and parsing. -/
def reread (d : Dec) : Dec := if 0 ≤ d.scale then d else ⟨d.int * tenPow (-d.scale), 0⟩

theorem reread_val (d : Dec) : (reread d).val = d.val := by
  have := canon_parse d
  rw [parseDec_displayDec] at this
  exact Option.some.inj this

/-- The chain of the code: `(top).mul_add(v, c).mul_add(v, c')…`. -/
def codeChain (v top : Expr) (cs : List Expr) : Expr := cs.foldl (fun acc t => .methodCall acc "mul_add" [v, t]) (.paren top)

section
variable {fx : FloatExt} {b32 : Bool} {u w : ℝ} {J : Set (RInterp RV)}

open Classical in
/-- The value that the literal written for `d` has. -/
noncomputable def LitOk.round (h : LitOk fx b32 u w J) (d : Dec) : ℝ :=
  if hd : |(d.val : ℝ)| ≤ 10 ^ 30 then (h.lit d hd).choose_spec.choose_spec.choose_spec.choose else 0

theorem LitOk.round_spec (h : LitOk fx b32 u w J) (d : Dec) (hd : |(d.val : ℝ)| ≤ 10 ^ 30) : ∃ a b x, fx.toF32 d = some a ∧ fx.toF64 d = some b ∧
    (if b32 then fx.litF32 a else fx.litF64 b) = .ok x ∧ (∀ I ∈ J, ∀ env, x.toR.denote I env = .f (h.round d)) ∧
    |h.round d - d.val| ≤ u * |(d.val : ℝ)| + w := by
  unfold LitOk.round
  rw [dif_pos hd]
  exact ⟨_, _, _, (h.lit d hd).choose_spec.choose_spec.choose_spec.choose_spec⟩

/-- The value of the literal that ends up in the code for the coefficient `d`. -/
noncomputable def LitOk.coeff (h : LitOk fx b32 u w J) (d : Dec) : ℝ := h.round (reread d)

theorem LitOk.coeff_near (h : LitOk fx b32 u w J) (d : Dec) (hd : |(d.val : ℝ)| ≤ 10 ^ 30) : |h.coeff d - d.val| ≤ u * |(d.val : ℝ)| + w := by
  obtain ⟨_, _, _, _, _, _, _, h1⟩ := h.round_spec (reread d) (by rw [reread_val]; exact hd)
  rw [reread_val] at h1
  exact h1

/-- The expression `x` is a literal written for `d`. -/
def LitOk.Means (h : LitOk fx b32 u w J) (x : Expr) (d : Dec) : Prop := ∀ I ∈ J, ∀ env, x.toR.denote I env = .f (h.coeff d)

theorem LitOk.visit_coeff (h : LitOk fx b32 u w J) (d : Dec) (hd : |(d.val : ℝ)| ≤ 10 ^ 30) :
    ∃ x, (useNumberTypeVisitor fx "decimal" (widthOf b32)).visit (quotedDec d) = .ok x ∧ h.Means x d := by
  obtain ⟨a, b, x, h1, h2, h3, h4, -⟩ := h.round_spec (reread d) (by rw [reread_val]; exact hd)
  have key : ∀ l, numberTypeLit fx "decimal" (widthOf b32) l (displayDec d) = .ok x := by
    intro l
    unfold numberTypeLit
    rw [parseDec_displayDec]
    simp only [Res.unwrapOpt, Res.ok_bind]
    rw [show (if 0 ≤ d.scale then d else ⟨d.int * tenPow (-d.scale), 0⟩) = reread d from rfl, h1, h2]
    simp only [Res.unwrapOpt, Res.ok_bind]
    cases b32 <;> simpa [widthOf] using h3
  refine ⟨x, ?_, h4⟩
  unfold quotedDec
  split_ifs
  · simp only [Visitor.visit, useNumberTypeVisitor]; rw [key]; rfl
  · simp only [Visitor.visit, useNumberTypeVisitor]; rw [key]; rfl

/-- The chain in the code. -/
theorem LitOk.visit_chain (h : LitOk fx b32 u w J) (v v' : Expr) (hv : (useNumberTypeVisitor fx "decimal" (widthOf b32)).visit v = .ok v') (top : Dec) (cs : List Dec)
    (hd : ∀ d ∈ top :: cs, |(d.val : ℝ)| ≤ 10 ^ 30) :
    ∃ xt xs, (useNumberTypeVisitor fx "decimal" (widthOf b32)).visit (mulAddChain v top cs) = .ok (codeChain v' xt xs) ∧
      h.Means xt top ∧ List.Forall₂ h.Means xs cs := by
  induction cs using List.reverseRecOn with
  | nil =>
    obtain ⟨x, h1, h2⟩ := h.visit_coeff top (hd top (by simp))
    refine ⟨x, [], ?_, h2, .nil⟩
    simp only [mulAddChain, List.foldl_nil, Visitor.visit, h1, Res.ok_bind]; rfl
  | append_singleton cs c ih =>
    obtain ⟨xt, xs, h1, h2, h5⟩ := ih (fun d h => hd d (by simp only [List.mem_cons, List.mem_append] at h ⊢; tauto))
    obtain ⟨x, h3, h4⟩ := h.visit_coeff c (hd c (by simp))
    refine ⟨xt, xs ++ [x], ?_, h2, List.rel_append h5 (.cons h4 .nil)⟩
    rw [mulAddChain_snoc]
    simp only [Visitor.visit, Visitor.visitArgs, h1, hv, h3, Res.ok_bind, codeChain, List.foldl_append, List.foldl_cons, List.foldl_nil]; rfl

end

/-- The variable part of the chain. -/
def chainArg (s : String) (sq : Bool) : Expr := if sq then .binary (.path [s]) .mul (.path [s]) else .path [s]

/-- The value of the chain with coefficients `num`. -/
noncomputable def chainVal (num : Dec → ℝ) (sq od : Bool) (hi : Dec) (cs : List Dec) (t : ℝ) : ℝ :=
  cs.foldl (fun acc c => acc * (if sq then t * t else t) + num c) (num hi) * (if od then t else 1)

/-- Which coefficients the expression is made of. -/
theorem mulAdd_parts (terms : List Dec) (s : String) (parity : Parity) (h0 : 0 < terms.length) (hp : parity.accepts terms.length) :
    ∃ (sq od : Bool) (hi : Dec) (cs : List Dec) (e : Expr), mulAddPolynomial terms [s] parity = .ok e ∧
      e = (if od then .binary (mulAddChain (chainArg s sq) hi cs) .mul (.path [s]) else mulAddChain (chainArg s sq) hi cs) ∧
      cs.length * (if sq then 2 else 1) + (if od then 1 else 0) + 1 = terms.length ∧
      ∀ d ∈ hi :: cs, ∃ i < terms.length, parity.keeps i ∧ d = terms.getD i default := by
  unfold mulAddPolynomial
  rw [if_neg (by omega)]
  simp only []
  rw [vget_ok_of terms _ (by omega), Res.ok_bind]
  cases parity with
  | odd =>
    have hk : terms.length % 2 = 0 := hp
    have hidx : ∀ i ∈ (stepTwo 1 (terms.length - 1)).reverse, i < terms.length ∧ i % 2 = 1 := by
      intro i hi
      simp only [stepTwo, List.mem_reverse, List.mem_map, List.mem_range] at hi
      obtain ⟨j, hj, rfl⟩ := hi
      omega
    simp only []
    rw [if_neg (by omega), vgets_ok _ _ (fun i hi => (hidx i hi).1), Res.ok_bind]
    refine ⟨true, true, _, _, _, rfl, rfl, by rw [List.length_map, List.length_reverse, stepTwo, List.length_map, List.length_range]; simp; omega, fun d hd => ?_⟩
    rcases List.mem_cons.1 hd with rfl | hd
    · exact ⟨_, by omega, by show _ % 2 = 1; omega, rfl⟩
    · obtain ⟨i, hi, rfl⟩ := List.mem_map.1 hd
      exact ⟨i, (hidx i hi).1, (hidx i hi).2, rfl⟩
  | even =>
    have hk : terms.length % 2 = 1 := hp
    have hidx : ∀ i ∈ (stepTwo 0 (terms.length - 1)).reverse, i < terms.length ∧ i % 2 = 0 := by
      intro i hi
      simp only [stepTwo, List.mem_reverse, List.mem_map, List.mem_range] at hi
      obtain ⟨j, hj, rfl⟩ := hi
      omega
    simp only []
    rw [if_neg (by omega), vgets_ok _ _ (fun i hi => (hidx i hi).1), Res.ok_bind]
    refine ⟨true, false, _, _, _, rfl, rfl, by rw [List.length_map, List.length_reverse, stepTwo, List.length_map, List.length_range]; simp; omega, fun d hd => ?_⟩
    rcases List.mem_cons.1 hd with rfl | hd
    · exact ⟨_, by omega, by show _ % 2 = 0; omega, rfl⟩
    · obtain ⟨i, hi, rfl⟩ := List.mem_map.1 hd
      exact ⟨i, (hidx i hi).1, (hidx i hi).2, rfl⟩
  | neither =>
    have hidx : ∀ i ∈ (List.range (terms.length - 1)).reverse, i < terms.length := by
      intro i hi; simp at hi; omega
    simp only []
    rw [vgets_ok _ _ hidx, Res.ok_bind]
    refine ⟨false, false, _, _, _, rfl, rfl, by simp; omega, fun d hd => ?_⟩
    rcases List.mem_cons.1 hd with rfl | hd
    · exact ⟨_, by omega, trivial, rfl⟩
    · obtain ⟨i, hi, rfl⟩ := List.mem_map.1 hd
      exact ⟨i, hidx i hi, trivial, rfl⟩

/-- A meaning of the polynomial, with the coefficients `num`. -/
noncomputable def polyInterp (num : Dec → ℝ) (t : ℝ) : Interp ℝ where
  un _ a := a
  bin _ a b := a * b
  meth _ r args := match args with | [a, b] => r * a + b | _ => 0
  lit l := match l with
    | .int ds _ => ((parseDec ds).map num).getD 0
    | .float ds _ => ((parseDec ds).map num).getD 0
    | _ => 0
  var _ := t
  field _ a := a
  call a _ := a
  other _ := 0

theorem polyInterp_chain (num : Dec → ℝ) (t : ℝ) : ChainInterp (polyInterp num t) (fun d => num (reread d)) := by
  refine ⟨fun _ _ => rfl, fun _ _ _ => rfl, fun d => ?_⟩
  unfold quotedDec
  split_ifs <;> (rw [Expr.denote]; simp only [polyInterp, parseDec_displayDec, Option.map_some, Option.getD_some]; rfl)

section
variable {fx : FloatExt} {b32 : Bool} {u w : ℝ} {J : Set (RInterp RV)}

/-- The shape of the polynomial in the code.  Its value with any coefficients is the sum of the terms. -/
theorem LitOk.code_shape (h : LitOk fx b32 u w J) (terms : List Dec) (s : String) (parity : Parity) (h0 : 0 < terms.length) (hp : parity.accepts terms.length)
    (hd : ∀ i < terms.length, parity.keeps i → |(valAt terms i : ℝ)| ≤ 10 ^ 30) :
    ∃ (sq od : Bool) (hi : Dec) (cs : List Dec) (xt : Expr) (xs : List Expr) (r : Expr), mulAddPolynomial terms [s] parity = .ok r ∧
      useNumberType fx r "decimal" (widthOf b32) =
        .ok (if od then .binary (codeChain (chainArg s sq) xt xs) .mul (.path [s]) else codeChain (chainArg s sq) xt xs) ∧
      cs.length * (if sq then 2 else 1) + (if od then 1 else 0) + 1 = terms.length ∧ h.Means xt hi ∧ List.Forall₂ h.Means xs cs ∧
      ∀ (num : Dec → ℝ) (t : ℝ), chainVal (fun d => num (reread d)) sq od hi cs t =
        ∑ i ∈ Finset.range terms.length, if parity.keeps i then num (reread (terms.getD i default)) * t ^ i else 0 := by
  obtain ⟨sq, od, hi, cs, r, hr, hshape, hlen, hmem⟩ := mulAdd_parts terms s parity h0 hp
  have hbig : ∀ d ∈ hi :: cs, |(d.val : ℝ)| ≤ 10 ^ 30 := by
    intro d hd'
    obtain ⟨i, h1, h2, rfl⟩ := hmem d hd'
    exact hd i h1 h2
  have hpath : (useNumberTypeVisitor fx "decimal" (widthOf b32)).visit (.path [s]) = .ok (.path [s]) := by
    simp only [Visitor.visit, useNumberTypeVisitor]; rfl
  have hvv : (useNumberTypeVisitor fx "decimal" (widthOf b32)).visit (chainArg s sq) = .ok (chainArg s sq) := by
    cases sq
    · exact hpath
    · show (useNumberTypeVisitor fx "decimal" (widthOf b32)).visit (.binary (.path [s]) .mul (.path [s])) = _
      rw [Visitor.visit_binary _ rfl rfl, hpath]; rfl
  obtain ⟨xt, xs, he, h1, h2⟩ := h.visit_chain _ _ hvv hi cs hbig
  refine ⟨sq, od, hi, cs, xt, xs, r, hr, ?_, hlen, h1, h2, fun num t => ?_⟩
  · unfold useNumberType
    rw [hshape]
    cases od
    · exact he
    · show (useNumberTypeVisitor fx "decimal" (widthOf b32)).visit (.binary _ .mul _) = _
      rw [Visitor.visit_binary _ rfl rfl, he, hpath]; rfl
  · obtain ⟨r', hr', hden⟩ := chain_poly_value (polyInterp_chain num t) terms [s] parity h0 hp
    rw [hr] at hr'
    injection hr' with hr'
    subst hr'
    rw [show (polyInterp num t).var [s] = t from rfl] at hden
    rw [← hden, hshape]
    have harg : (chainArg s sq).denote (polyInterp num t) = if sq then t * t else t := by
      cases sq <;> simp only [chainArg, Expr.denote, if_true, if_false, Bool.false_eq_true] <;> rfl
    unfold chainVal
    cases od
    · simp only [if_false, Bool.false_eq_true, mul_one]
      rw [denote_chain (polyInterp_chain num t), harg]
    · simp only [if_true]
      rw [Expr.denote, denote_chain (polyInterp_chain num t), harg]
      rfl

/-- In exact arithmetic the chain has its value. -/
theorem codeChain_exact {h : LitOk fx b32 u w J} {I : RInterp RV} (hI : I ∈ J) (hI' : I ∈ exactInterps) {env : Name → RV} {v xt : Expr} {xs : List Expr} {hi : Dec} {cs : List Dec}
    (h1 : h.Means xt hi) (h2 : List.Forall₂ h.Means xs cs) {U : ℝ} (hU : v.toR.denote I env = .f U) :
    (codeChain v xt xs).toR.denote I env = .f (cs.foldl (fun acc c => acc * U + h.coeff c) (h.coeff hi)) := by
  obtain ⟨F, calls, rfl⟩ := hI'
  unfold codeChain
  have key : ∀ (e : Expr) (a : ℝ), e.toR.denote (realInterp F calls) env = .f a →
      (xs.foldl (fun acc t => Expr.methodCall acc "mul_add" [v, t]) e).toR.denote (realInterp F calls) env = .f (cs.foldl (fun acc c => acc * U + h.coeff c) a) := by
    induction h2 with
    | nil => intro e a he; exact he
    | cons h3 _ ih =>
      intro e a he
      rw [List.foldl_cons, List.foldl_cons]
      refine ih _ _ ?_
      simp only [Expr.toR, Expr.toRArgs, RExpr.denote, RExpr.denoteArgs, he, hU, h3 _ hI env]
      rfl
  refine key _ _ ?_
  simp only [Expr.toR, RExpr.denote]; exact h1 _ hI env

/-- The polynomial in the code computes the sum of its terms with the coefficients of the code. -/
theorem LitOk.code_poly (h : FloatOk fx b32 u w) (terms : List Dec) (s : String) (parity : Parity) (h0 : 0 < terms.length) (hp : parity.accepts terms.length)
    (hd : ∀ i < terms.length, parity.keeps i → |(valAt terms i : ℝ)| ≤ 10 ^ 30) :
    ∃ r e, mulAddPolynomial terms [s] parity = .ok r ∧ useNumberType fx r "decimal" (widthOf b32) = .ok e ∧
      ∀ F calls env (t : ℝ), env [s] = .f t → e.toR.denote (realInterp F calls) env =
        .f (∑ i ∈ Finset.range terms.length, if parity.keeps i then h.coeff (terms.getD i default) * t ^ i else 0) := by
  obtain ⟨sq, od, hi, cs, xt, xs, r, hr, he, -, h1, h2, hval⟩ := h.code_shape terms s parity h0 hp hd
  refine ⟨r, _, hr, he, fun F calls env t ht => ?_⟩
  have hU : (chainArg s sq).toR.denote (realInterp F calls) env = .f (if sq then t * t else t) := by
    cases sq <;> simp only [chainArg, Expr.toR, RExpr.denote, ht, if_true, if_false, Bool.false_eq_true] <;> rfl
  have hmem : realInterp F calls ∈ exactInterps := ⟨F, calls, rfl⟩
  have hc := codeChain_exact hmem hmem h1 h2 hU
  have := hval h.round t
  change chainVal h.coeff sq od hi cs t = ∑ i ∈ Finset.range terms.length, if parity.keeps i then h.coeff (terms.getD i default) * t ^ i else 0 at this
  rw [← this]
  unfold chainVal
  cases od
  · simp only [if_false, Bool.false_eq_true, mul_one]; exact hc
  · simp only [if_true, Expr.toR, RExpr.denote, hc, ht]; rfl

/-- The coefficients of the code: they are of moderate size, `A'` bounds the sum of the absolute values of the terms, and the polynomial stays close
to the target, also a little outside of the interval, where `L` is a Lipschitz constant at the ends. -/
theorem LitOk.code_coeffs (h : LitOk fx b32 u w J) (terms : List Dec) (parity : Parity) (N : ℕ) (hlen : terms.length = N + 1)
    {f : ℝ → ℝ} {ε W τ A A' δ L : ℝ} (hW : 0 < W) (hW1 : W ≤ 1)
    (herr : ∀ t ∈ Set.Icc (-W) W, |∑ i ∈ Finset.range (N + 1), (if parity.keeps i then (valAt terms i : ℝ) * t ^ i else 0) - f t| ≤ ε)
    (hf : NearPoly f N W τ A) (hA : A + 2 * (ε + τ) * ∑ k ∈ Finset.range (N + 1), silver ^ k ≤ A') (hbig : A' ≤ 10 ^ 30 * W ^ N)
    (hδ0 : 0 ≤ δ) (hδ : (1 + δ / W) ^ N ≤ 2) (hL : ∀ x c : ℝ, |x| ≤ W + δ → |c| ≤ W → |x - c| ≤ δ → |f c - f x| ≤ L * δ) :
    (∀ i < terms.length, parity.keeps i → |(valAt terms i : ℝ)| ≤ 10 ^ 30) ∧
    ∑ i ∈ Finset.range (N + 1), (if parity.keeps i then |h.coeff (terms.getD i default)| * W ^ i else 0) ≤ (1 + u) * A' + w * (N + 1) ∧
    ∀ x ∈ Set.Icc (-(W + δ)) (W + δ), |∑ i ∈ Finset.range (N + 1), (if parity.keeps i then h.coeff (terms.getD i default) * x ^ i else 0) - f x| ≤
      ε + u * A' + w * (N + 1) + δ * (2 * N / W * ((1 + u) * A' + w * (N + 1)) + L) := by
  set a : ℕ → ℝ := fun i => if parity.keeps i then (valAt terms i : ℝ) else 0 with ha
  set P : ℝ[X] := ∑ i ∈ Finset.range (N + 1), monomial i (a i) with hP
  have hcoeff : ∀ i < N + 1, P.coeff i = a i := by
    intro i hi
    rw [hP, Polynomial.finsetSum_coeff]
    simp only [coeff_monomial]
    rw [Finset.sum_ite_eq' (Finset.range (N + 1)) i, if_pos (Finset.mem_range.2 hi)]
  have hdeg : P.degree < (N + 1 : ℕ) := by
    rw [degree_lt_iff_coeff_zero]
    intro i hi
    rw [hP, Polynomial.finsetSum_coeff]
    refine Finset.sum_eq_zero fun j hj => ?_
    rw [coeff_monomial, if_neg (by have := Finset.mem_range.1 hj; omega)]
  have hsum : absSum (N + 1) P W = ∑ i ∈ Finset.range (N + 1), |a i| * W ^ i :=
    Finset.sum_congr rfl fun i hi => by rw [hcoeff i (Finset.mem_range.1 hi)]
  have hS : ∑ i ∈ Finset.range (N + 1), |a i| * W ^ i ≤ A' := by
    rw [← hsum]
    refine (hf.absSum_le hW P hdeg (fun t ht => ?_)).trans hA
    rw [hP, eval_finsetSum]
    simp only [eval_monomial, ha]
    have := herr t (abs_le.1 ht)
    simpa only [ite_mul, zero_mul] using this
  have hA0 : 0 ≤ A' := le_trans (Finset.sum_nonneg fun i _ => by positivity) hS
  have hWi : ∀ i < N + 1, W ^ N ≤ W ^ i := fun i hi => pow_le_pow_of_le_one hW.le hW1 (by omega)
  have hsize : ∀ i < terms.length, parity.keeps i → |(valAt terms i : ℝ)| ≤ 10 ^ 30 := by
    intro i hi hk
    rw [hlen] at hi
    have h1 : |a i| * W ^ i ≤ A' := (Finset.single_le_sum (f := fun i => |a i| * W ^ i) (fun i _ => by positivity) (Finset.mem_range.2 hi)).trans hS
    have h2 : a i = (valAt terms i : ℝ) := if_pos hk
    rw [h2] at h1
    have h3 : |(valAt terms i : ℝ)| * W ^ N ≤ 10 ^ 30 * W ^ N := ((mul_le_mul_of_nonneg_left (hWi i hi) (abs_nonneg _)).trans h1).trans hbig
    exact le_of_mul_le_mul_right h3 (by positivity)
  set q : ℕ → ℝ := fun i => if parity.keeps i then h.coeff (terms.getD i default) else 0 with hq
  have hqa : ∀ i < N + 1, |q i - a i| ≤ u * |a i| + w := by
    intro i hi
    by_cases hk : parity.keeps i
    · simp only [hq, ha, if_pos hk]
      exact h.coeff_near (terms.getD i default) (hsize i (by omega) hk)
    · simp only [hq, ha, if_neg hk, sub_self, abs_zero, mul_zero, zero_add]
      exact h.nonneg.2
  have hW1' : ∀ i : ℕ, W ^ i ≤ 1 := fun i => pow_le_one₀ hW.le hW1
  have hqi : ∀ i < N + 1, |q i| * W ^ i ≤ (1 + u) * (|a i| * W ^ i) + w := by
    intro i hi
    have h3 := hqa i hi
    have h4 : |q i| ≤ |q i - a i| + |a i| := by have := abs_add_le (q i - a i) (a i); rwa [sub_add_cancel] at this
    have h5 : |q i| * W ^ i ≤ ((1 + u) * |a i| + w) * W ^ i := mul_le_mul_of_nonneg_right (by linarith) (by positivity)
    have h6 := mul_le_mul_of_nonneg_left (hW1' i) h.nonneg.2
    linarith
  refine ⟨hsize, ?_, fun x hx => ?_⟩
  · calc ∑ i ∈ Finset.range (N + 1), (if parity.keeps i then |h.coeff (terms.getD i default)| * W ^ i else 0)
        ≤ ∑ i ∈ Finset.range (N + 1), ((1 + u) * (|a i| * W ^ i) + w) := by
          refine Finset.sum_le_sum fun i hi => (le_of_eq ?_).trans (hqi i (Finset.mem_range.1 hi))
          simp only [hq]
          split_ifs
          · rfl
          · simp
      _ = (1 + u) * ∑ i ∈ Finset.range (N + 1), |a i| * W ^ i + w * (N + 1) := by
          rw [Finset.sum_add_distrib, ← Finset.mul_sum, Finset.sum_const, Finset.card_range, nsmul_eq_mul]; push_cast; ring
      _ ≤ _ := by
          have := mul_le_mul_of_nonneg_left hS (by linarith [h.nonneg.1] : 0 ≤ 1 + u)
          linarith
  -- the nearest point of the interval
  obtain ⟨c, hc, hcx⟩ : ∃ c : ℝ, |c| ≤ W ∧ |x - c| ≤ δ := by
    rcases le_total x (-W) with h1 | h1
    · exact ⟨-W, by rw [abs_neg, abs_of_pos hW], by rw [abs_le]; constructor <;> linarith [hx.1]⟩
    · rcases le_total x W with h2 | h2
      · exact ⟨x, abs_le.2 ⟨h1, h2⟩, by simpa using hδ0⟩
      · exact ⟨W, by rw [abs_of_pos hW], by rw [abs_le]; constructor <;> linarith [hx.2]⟩
  have hx' : |x| ≤ W + δ := abs_le.2 hx
  have e1 : |∑ i ∈ Finset.range (N + 1), (q i * c ^ i) - f c| ≤ ε + u * A' + w * (N + 1) := by
    have h1 := herr c (abs_le.1 hc)
    have h2 : |∑ i ∈ Finset.range (N + 1), (q i * c ^ i) - ∑ i ∈ Finset.range (N + 1), (a i * c ^ i)| ≤ u * A' + w * (N + 1) := by
      rw [← Finset.sum_sub_distrib]
      refine (Finset.abs_sum_le_sum_abs _ _).trans ?_
      calc ∑ i ∈ Finset.range (N + 1), |q i * c ^ i - a i * c ^ i| ≤ ∑ i ∈ Finset.range (N + 1), (u * (|a i| * W ^ i) + w) := by
            refine Finset.sum_le_sum fun i hi => ?_
            have h3 := hqa i (Finset.mem_range.1 hi)
            have h4 : |c| ^ i ≤ W ^ i := pow_le_pow_left₀ (abs_nonneg _) hc i
            rw [← sub_mul, abs_mul, abs_pow]
            calc |q i - a i| * |c| ^ i ≤ (u * |a i| + w) * W ^ i := mul_le_mul h3 h4 (by positivity) ((abs_nonneg _).trans h3)
              _ = u * (|a i| * W ^ i) + w * W ^ i := by ring
              _ ≤ _ := by have := mul_le_mul_of_nonneg_left (hW1' i) h.nonneg.2; linarith
        _ = u * ∑ i ∈ Finset.range (N + 1), |a i| * W ^ i + w * (N + 1) := by
            rw [Finset.sum_add_distrib, ← Finset.mul_sum, Finset.sum_const, Finset.card_range, nsmul_eq_mul]; push_cast; ring
        _ ≤ _ := by have := mul_le_mul_of_nonneg_left hS h.nonneg.1; linarith
    have h3 : ∑ i ∈ Finset.range (N + 1), (if parity.keeps i then (valAt terms i : ℝ) * c ^ i else 0) = ∑ i ∈ Finset.range (N + 1), (a i * c ^ i) := by
      simp only [ha, ite_mul, zero_mul]
    rw [h3] at h1
    have := abs_add_le (∑ i ∈ Finset.range (N + 1), (q i * c ^ i) - ∑ i ∈ Finset.range (N + 1), (a i * c ^ i)) (∑ i ∈ Finset.range (N + 1), (a i * c ^ i) - f c)
    rw [sub_add_sub_cancel] at this
    linarith
  have e2 : |∑ i ∈ Finset.range (N + 1), (q i * x ^ i) - ∑ i ∈ Finset.range (N + 1), (q i * c ^ i)| ≤ δ * (2 * N / W * ((1 + u) * A' + w * (N + 1))) := by
    rw [← Finset.sum_sub_distrib]
    refine (Finset.abs_sum_le_sum_abs _ _).trans ?_
    calc ∑ i ∈ Finset.range (N + 1), |q i * x ^ i - q i * c ^ i| ≤ ∑ i ∈ Finset.range (N + 1), (δ * (2 * N / W) * ((1 + u) * (|a i| * W ^ i) + w)) := by
          refine Finset.sum_le_sum fun i hi => ?_
          have hi' := Finset.mem_range.1 hi
          have hqi := hqi i hi'
          have hpow : |x ^ i - c ^ i| ≤ δ * (2 * N / W) * W ^ i := by
            rcases Nat.eq_zero_or_pos i with rfl | hi0
            · simp only [pow_zero, sub_self, abs_zero, mul_one]; positivity
            · have h3 := abs_pow_sub_pow_le x c i
              have h4 : max |x| |c| ≤ W * (1 + δ / W) := by
                rw [mul_add, mul_one, mul_div_cancel₀ _ hW.ne']
                exact max_le hx' (by linarith)
              have hge : 1 ≤ 1 + δ / W := le_add_of_nonneg_right (by positivity)
              have h5 : max |x| |c| ^ (i - 1) ≤ W ^ (i - 1) * 2 := by
                calc max |x| |c| ^ (i - 1) ≤ (W * (1 + δ / W)) ^ (i - 1) := pow_le_pow_left₀ (le_max_of_le_left (abs_nonneg _)) h4 _
                  _ = W ^ (i - 1) * (1 + δ / W) ^ (i - 1) := mul_pow _ _ _
                  _ ≤ W ^ (i - 1) * 2 := mul_le_mul_of_nonneg_left ((pow_le_pow_right₀ hge (by omega)).trans hδ) (by positivity)
              have h6 : (i : ℝ) ≤ N := by exact_mod_cast (by omega : i ≤ N)
              have h7 : W ^ (i - 1) = W ^ i / W := by rw [eq_div_iff hW.ne', ← pow_succ]; congr 1; omega
              calc |x ^ i - c ^ i| ≤ |x - c| * i * max |x| |c| ^ (i - 1) := h3
                _ ≤ δ * N * (W ^ (i - 1) * 2) := by gcongr
                _ = _ := by rw [h7]; ring
          rw [← mul_sub, abs_mul]
          calc |q i| * |x ^ i - c ^ i| ≤ |q i| * (δ * (2 * N / W) * W ^ i) := mul_le_mul_of_nonneg_left hpow (abs_nonneg _)
            _ = δ * (2 * N / W) * (|q i| * W ^ i) := by ring
            _ ≤ _ := mul_le_mul_of_nonneg_left hqi (by positivity)
      _ = δ * (2 * N / W) * ((1 + u) * ∑ i ∈ Finset.range (N + 1), |a i| * W ^ i + w * (N + 1)) := by
          rw [← Finset.mul_sum, Finset.sum_add_distrib, ← Finset.mul_sum, Finset.sum_const, Finset.card_range, nsmul_eq_mul]; push_cast; ring
      _ ≤ δ * (2 * N / W) * ((1 + u) * A' + w * (N + 1)) := by
          refine mul_le_mul_of_nonneg_left ?_ (by positivity)
          have := mul_le_mul_of_nonneg_left hS (by linarith [h.nonneg.1] : 0 ≤ 1 + u)
          linarith
      _ = _ := by ring
  have e3 := hL x c hx' hc hcx
  have e4 : ∑ i ∈ Finset.range (N + 1), (if parity.keeps i then h.coeff (terms.getD i default) * x ^ i else 0) = ∑ i ∈ Finset.range (N + 1), (q i * x ^ i) := by
    simp only [hq, ite_mul, zero_mul]
  rw [e4]
  generalize ∑ i ∈ Finset.range (N + 1), (q i * x ^ i) = X at *
  generalize ∑ i ∈ Finset.range (N + 1), (q i * c ^ i) = Y at *
  rw [abs_le] at e1 e2 e3 ⊢
  constructor <;> nlinarith

/-- How close the polynomial in the code stays to the target, also a little outside of the interval: `A'` bounds the sum of the absolute values of
the terms and `L` is a Lipschitz constant at the ends. -/
theorem LitOk.code_near (h : FloatOk fx b32 u w) (terms : List Dec) (s : String) (parity : Parity) (N : ℕ) (hlen : terms.length = N + 1) (hp : parity.accepts (N + 1))
    {f : ℝ → ℝ} {ε W τ A A' δ L : ℝ} (hW : 0 < W) (hW1 : W ≤ 1)
    (herr : ∀ t ∈ Set.Icc (-W) W, |∑ i ∈ Finset.range (N + 1), (if parity.keeps i then (valAt terms i : ℝ) * t ^ i else 0) - f t| ≤ ε)
    (hf : NearPoly f N W τ A) (hA : A + 2 * (ε + τ) * ∑ k ∈ Finset.range (N + 1), silver ^ k ≤ A') (hbig : A' ≤ 10 ^ 30 * W ^ N)
    (hδ0 : 0 ≤ δ) (hδ : (1 + δ / W) ^ N ≤ 2) (hL : ∀ x c : ℝ, |x| ≤ W + δ → |c| ≤ W → |x - c| ≤ δ → |f c - f x| ≤ L * δ) :
    ∃ r e, mulAddPolynomial terms [s] parity = .ok r ∧ useNumberType fx r "decimal" (widthOf b32) = .ok e ∧
      ∀ F calls, Approximates (realInterp F calls) s e.toR f (Set.Icc (-(W + δ)) (W + δ))
        (ε + u * A' + w * (N + 1) + δ * (2 * N / W * ((1 + u) * A' + w * (N + 1)) + L)) := by
  obtain ⟨hsize, -, hnear⟩ := h.code_coeffs terms parity N hlen hW hW1 herr hf hA hbig hδ0 hδ hL
  obtain ⟨r, e, hr, he, hden⟩ := h.code_poly terms s parity (by omega) (by rw [hlen]; exact hp) hsize
  refine ⟨r, e, hr, he, fun F calls => ⟨_, fun env x hx _ => hden F calls env x hx, fun x hx => ?_⟩⟩
  rw [hlen]
  exact hnear x hx

end

end Verif

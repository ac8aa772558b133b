import Verif.Lemmas.Ieee
import Verif.Lemmas.CodePoly
import Verif.Props.GenBits

/-!
# Generated code in IEEE 754 arithmetic

The error of a chain of `mul_add` follows the standard scheme: a value that went through `d` roundings is within `((1 + ε)^d - 1) A` of the exact one,
where `A` is the same expression with absolute values.  Underflow is absorbed by adding the smallest normal number to every term of `A`.
-/

namespace Verif
open RExpr

section
variable (F : FloatFmt) (calls : String → List RV → RV) (env : Name → RV)

@[simp] theorem ieee_un : (ieeeInterp F calls).un = unRV := rfl
@[simp] theorem ieee_bin : (ieeeInterp F calls).bin = binIE F := rfl
@[simp] theorem ieee_meth : (ieeeInterp F calls).meth = methIE F := rfl
@[simp] theorem ieee_cast : (ieeeInterp F calls).cast = castIE F := rfl
@[simp] theorem ieee_call (g : String) (args : List RV) : (ieeeInterp F calls).call [g] args = calls g args := by
  simp [ieeeInterp]
@[simp] theorem ieee_test (t : Bool) : (ieeeInterp F calls).test (.b t) = t := rfl
theorem ieee_fromBits (n : ℤ) (h : 0 ≤ n) (h2 : n < 2 ^ F.width) :
    (ieeeInterp F calls).call ["fty", "from_bits"] [.i n] = F.decode n.toNat := by
  simp [ieeeInterp, h, h2]

@[simp] theorem binIE_add (x y : ℝ) : binIE F .add (.f x) (.f y) = F.rne (x + y) := rfl
@[simp] theorem binIE_sub (x y : ℝ) : binIE F .sub (.f x) (.f y) = F.rne (x - y) := by rw [sub_eq_add_neg]; rfl
@[simp] theorem binIE_mul (x y : ℝ) : binIE F .mul (.f x) (.f y) = F.rne (x * y) := rfl
theorem binIE_div {x y : ℝ} (h : y ≠ 0) : binIE F .div (.f x) (.f y) = F.rne (x / y) := by simp [binIE, divIE, h]
@[simp] theorem binIE_lt (x y : ℝ) : binIE F .lt (.f x) (.f y) = .b (decide (x < y)) := by simp [binIE, cmpIE, RV.ereal?]
@[simp] theorem binIE_le (x y : ℝ) : binIE F .le (.f x) (.f y) = .b (decide (x ≤ y)) := by simp [binIE, cmpIE, RV.ereal?]
@[simp] theorem binIE_gt (x y : ℝ) : binIE F .gt (.f x) (.f y) = .b (decide (y < x)) := by simp [binIE, cmpIE, RV.ereal?]
@[simp] theorem binIE_ge (x y : ℝ) : binIE F .ge (.f x) (.f y) = .b (decide (y ≤ x)) := by simp [binIE, cmpIE, RV.ereal?]
@[simp] theorem methIE_abs (x : ℝ) : methIE F "abs" (.f x) [] = .f |x| := rfl
theorem methIE_sqrt {x : ℝ} (h : 0 ≤ x) : methIE F "sqrt" (.f x) [] = F.rne (Real.sqrt x) := by simp [methIE, not_lt.2 h]
theorem methIE_recip {x : ℝ} (h : x ≠ 0) : methIE F "recip" (.f x) [] = F.rne (1 / x) := by simp [methIE, divIE, h]
@[simp] theorem methIE_copysign (x y : ℝ) : methIE F "copysign" (.f x) [.f y] = .f (if y < 0 then -|x| else |x|) := rfl
@[simp] theorem methIE_mul_add (x y z : ℝ) : methIE F "mul_add" (.f x) [.f y, .f z] = F.rne (x * y + z) := rfl
@[simp] theorem methIE_to_bits (x : ℝ) : methIE F "to_bits" (.f x) [] = .i (F.encode x) := rfl
@[simp] theorem castIE_fty (x : ℝ) : castIE F ["fty"] (.f x) = .f x := rfl
@[simp] theorem castIE_fty_i (n : ℤ) : castIE F ["fty"] (.i n) = F.rne n := rfl
@[simp] theorem castIE_ity (x : ℝ) : castIE F ["ity"] (.f x) = .i (clampZ (-2 ^ (F.width - 1)) (2 ^ (F.width - 1) - 1) (truncR x)) := rfl
@[simp] theorem castIE_uty (x : ℝ) : castIE F ["uty"] (.f x) = .i (clampZ 0 (2 ^ F.width - 1) (truncR x)) := rfl
@[simp] theorem castIE_ity_i (n : ℤ) : castIE F ["ity"] (.i n) = .i (wrapS F.width n) := rfl
@[simp] theorem castIE_uty_i (n : ℤ) : castIE F ["uty"] (.i n) = .i (n % 2 ^ F.width) := rfl

theorem denoteIE_num {s : String} {d : Dec} (h : parseDec s.toList = some d) :
    (num s).denote (ieeeInterp F calls) env = F.rne (d.val : ℝ) := by
  simp [num, RExpr.denote, ieeeInterp, litIE, litRV, litValue, h]

theorem denoteIE_int {s : String} {n : ℤ} (h : parseDec s.toList = some ⟨n, 0⟩) :
    (int s).denote (ieeeInterp F calls) env = .i n := by
  simp [RExpr.int, RExpr.denote, ieeeInterp, litIE, litRV, litValue, h, Dec.val]
end

/-! ## Error propagation -/

namespace FloatFmt
variable {F : FloatFmt}

theorem prod_err {θ a S A U' U V : ℝ} {d e : ℕ} (hθ : 1 ≤ θ) (h1 : |a - S| ≤ (θ ^ d - 1) * A) (h2 : |S| ≤ A) (h3 : |U' - U| ≤ (θ ^ e - 1) * V) (h4 : |U| ≤ V) :
    |a * U' - S * U| ≤ (θ ^ (d + e) - 1) * (A * V) := by
  have hA : 0 ≤ A := (abs_nonneg _).trans h2
  have hV : 0 ≤ V := (abs_nonneg _).trans h4
  have hd : 1 ≤ θ ^ d := one_le_pow₀ hθ
  have he : 1 ≤ θ ^ e := one_le_pow₀ hθ
  have hU' : |U'| ≤ θ ^ e * V := by
    have := abs_add_le (U' - U) U
    rw [sub_add_cancel] at this; linarith
  have e1 : a * U' - S * U = (a - S) * U' + S * (U' - U) := by ring
  rw [e1]
  refine (abs_add_le _ _).trans ?_
  rw [abs_mul, abs_mul]
  have t1 : |a - S| * |U'| ≤ ((θ ^ d - 1) * A) * (θ ^ e * V) := mul_le_mul h1 hU' (abs_nonneg _) ((abs_nonneg _).trans h1)
  have t2 : |S| * |U' - U| ≤ A * ((θ ^ e - 1) * V) := mul_le_mul h2 h3 (abs_nonneg _) hA
  rw [pow_add]
  nlinarith

/-- One `mul_add`. -/
theorem mul_add_err {a S A U' U V q : ℝ} {d e : ℕ} (h1 : |a - S| ≤ ((1 + F.eps) ^ d - 1) * A) (h2 : |S| ≤ A)
    (h3 : |U' - U| ≤ ((1 + F.eps) ^ e - 1) * V) (h4 : |U| ≤ V) :
    |F.rnd (a * U' + q) - (S * U + q)| ≤ ((1 + F.eps) ^ (d + e + 1) - 1) * (A * V + (|q| + F.tiny)) ∧ |S * U + q| ≤ A * V + (|q| + F.tiny) ∧
      |a * U' + q| ≤ (1 + F.eps) ^ (d + e) * (A * V + (|q| + F.tiny)) := by
  have hA : 0 ≤ A := (abs_nonneg _).trans h2
  have hV : 0 ≤ V := (abs_nonneg _).trans h4
  have hε := eps_pos (F := F)
  have hσ := tiny_pos (F := F)
  have hθ : 1 ≤ 1 + F.eps := by linarith
  have hp := prod_err hθ h1 h2 h3 h4
  have hk : 1 ≤ (1 + F.eps) ^ (d + e) := one_le_pow₀ hθ
  set K := (1 + F.eps) ^ (d + e)
  have hs : |S * U| ≤ A * V := by rw [abs_mul]; exact mul_le_mul h2 h4 (abs_nonneg _) hA
  have hAV : 0 ≤ A * V := by positivity
  have hq := abs_nonneg q
  have ht : |a * U' + q| ≤ K * (A * V) + |q| := by
    have t1 := abs_add_le (a * U') q
    have t2 := abs_add_le (a * U' - S * U) (S * U)
    rw [sub_add_cancel] at t2
    nlinarith
  refine ⟨?_, ?_, ?_⟩
  · have hr := rnd_err (F := F) (a * U' + q)
    have t1 := abs_add_le (F.rnd (a * U' + q) - (a * U' + q)) (a * U' - S * U)
    rw [show F.rnd (a * U' + q) - (a * U' + q) + (a * U' - S * U) = F.rnd (a * U' + q) - (S * U + q) by ring] at t1
    have t2 : F.eps * (|a * U' + q| + F.tiny) ≤ F.eps * (K * (A * V) + |q| + F.tiny) := mul_le_mul_of_nonneg_left (by linarith) hε.le
    rw [show (1 + F.eps) ^ (d + e + 1) = K * (1 + F.eps) from pow_succ _ _]
    have t3 : 0 ≤ (K * (1 + F.eps) - 1 - F.eps) * (|q| + F.tiny) := mul_nonneg (by nlinarith) (by linarith)
    nlinarith
  · have := abs_add_le (S * U) q; linarith
  · have t3 : 0 ≤ (K - 1) * (|q| + F.tiny) := mul_nonneg (by linarith) (by linarith)
    nlinarith

/-- The chain in float arithmetic. -/
noncomputable def chainIE (F : FloatFmt) (q : Dec → ℝ) (U' : ℝ) (a : ℝ) (cs : List Dec) : ℝ := cs.foldl (fun acc c => F.rnd (acc * U' + q c)) a

theorem maj_ge (q : Dec → ℝ) {V A : ℝ} (hV : 0 ≤ V) (hA : 0 ≤ A) (cs : List Dec) :
    0 ≤ cs.foldl (fun acc c => acc * V + (|q c| + F.tiny)) A ∧ A * V ^ cs.length ≤ cs.foldl (fun acc c => acc * V + (|q c| + F.tiny)) A := by
  have hσ := tiny_pos (F := F)
  induction cs generalizing A with
  | nil => simp [hA]
  | cons c cs ih =>
    rw [List.foldl_cons]
    have hA' : 0 ≤ A * V + (|q c| + F.tiny) := by positivity
    refine ⟨(ih hA').1, le_trans ?_ (ih hA').2⟩
    rw [List.length_cons, pow_succ', ← mul_assoc]
    exact mul_le_mul_of_nonneg_right (by linarith [abs_nonneg (q c)]) (by positivity)

/-- Error of the chain, and no step overflows. -/
theorem chain_err (q : Dec → ℝ) {U' U V : ℝ} {e : ℕ} (h3 : |U' - U| ≤ ((1 + F.eps) ^ e - 1) * V) (h4 : |U| ≤ V) {v : ℝ} (hv0 : 0 < v) (hvV : v ≤ V) (hv1 : v ≤ 1) (cs : List Dec)
    {a S A : ℝ} {d : ℕ} (h1 : |a - S| ≤ ((1 + F.eps) ^ d - 1) * A) (h2 : |S| ≤ A) {K D : ℕ} (hK : cs.length ≤ K) (hD : d + cs.length * (e + 1) ≤ D)
    (hfin : (1 + F.eps) ^ D * cs.foldl (fun acc c => acc * V + (|q c| + F.tiny)) A ≤ 2 ^ F.bias * v ^ K) :
    |F.chainIE q U' a cs - cs.foldl (fun acc c => acc * U + q c) S| ≤ ((1 + F.eps) ^ (d + cs.length * (e + 1)) - 1) * cs.foldl (fun acc c => acc * V + (|q c| + F.tiny)) A ∧
    |cs.foldl (fun acc c => acc * U + q c) S| ≤ cs.foldl (fun acc c => acc * V + (|q c| + F.tiny)) A ∧
    ∀ (I : Dec → RV → RV), (∀ c x, |x * U' + q c| ≤ 2 ^ F.bias → I c (.f x) = .f (F.rnd (x * U' + q c))) →
      cs.foldl (fun acc c => I c acc) (.f a) = .f (F.chainIE q U' a cs) := by
  have hε := eps_pos (F := F)
  have hθ : 1 ≤ 1 + F.eps := by linarith
  have hV0 : 0 < V := hv0.trans_le hvV
  induction cs generalizing a S A d with
  | nil => exact ⟨by simpa [chainIE] using h1, by simpa using h2, fun I _ => rfl⟩
  | cons c cs ih =>
    obtain ⟨m1, m2, m3⟩ := mul_add_err (q := q c) h1 h2 h3 h4
    have hA : 0 ≤ A := (abs_nonneg _).trans h2
    rw [List.length_cons] at hK hD
    have hD' : d + e + 1 + cs.length * (e + 1) ≤ D := by have : (cs.length + 1) * (e + 1) = cs.length * (e + 1) + (e + 1) := by ring
                                                         omega
    rw [List.foldl_cons] at hfin
    obtain ⟨i1, i2, i3⟩ := ih m1 m2 (by omega) hD' hfin
    have hA1 : 0 ≤ A * V + (|q c| + F.tiny) := (abs_nonneg _).trans m2
    have hlim : |a * U' + q c| ≤ 2 ^ F.bias := by
      refine m3.trans ?_
      have hge := (maj_ge (F := F) q hV0.le hA1 cs).2
      have hVK : v ^ K ≤ V ^ cs.length := (pow_le_pow_of_le_one hv0.le hv1 (by omega)).trans (pow_le_pow_left₀ hv0.le hvV _)
      have hpw : (1 + F.eps) ^ (d + e) ≤ (1 + F.eps) ^ D := pow_le_pow_right₀ hθ (by
        have : 0 ≤ cs.length * (e + 1) := Nat.zero_le _
        omega)
      have : ((1 + F.eps) ^ (d + e) * (A * V + (|q c| + F.tiny))) * v ^ K ≤ 2 ^ F.bias * v ^ K := by
        refine le_trans ?_ hfin
        rw [mul_assoc]
        exact mul_le_mul hpw ((mul_le_mul_of_nonneg_left hVK hA1).trans hge) (by positivity) (by positivity)
      exact le_of_mul_le_mul_right this (by positivity)
    refine ⟨?_, i2, fun I hI => ?_⟩
    · have e1 : d + (cs.length + 1) * (e + 1) = d + e + 1 + cs.length * (e + 1) := by ring
      rw [List.length_cons, e1]; exact i1
    · rw [List.foldl_cons, hI c a hlim]
      exact i3 I hI

end FloatFmt

/-- The interpretations in float arithmetic of the width. -/
def ieeeInterps (b32 : Bool) : Set (RInterp RV) := {I | ∃ calls, I = ieeeInterp (fmtOf b32) calls}

/-- The float conversions are good: decimals of moderate size become literals that the compiler reads as floats within `u` relative plus `w` absolute. -/
abbrev IeeeOk (fx : FloatExt) (b32 : Bool) (u w : ℝ) : Prop := LitOk fx b32 u w (ieeeInterps b32)

section
variable {fx : FloatExt} {b32 : Bool} {u w : ℝ}

/-- The chain in the code, run in float arithmetic. -/
theorem codeChain_ieee {h : IeeeOk fx b32 u w} {calls : String → List RV → RV} {env : Name → RV} {v xt : Expr} {xs : List Expr} {hi : Dec} {cs : List Dec}
    (h1 : h.Means xt hi) (h2 : List.Forall₂ h.Means xs cs) {U' : ℝ} (hU : v.toR.denote (ieeeInterp (fmtOf b32) calls) env = .f U') :
    (codeChain v xt xs).toR.denote (ieeeInterp (fmtOf b32) calls) env =
      cs.foldl (fun acc c => methIE (fmtOf b32) "mul_add" acc [.f U', .f (h.coeff c)]) (.f (h.coeff hi)) := by
  have hI : ieeeInterp (fmtOf b32) calls ∈ ieeeInterps b32 := ⟨calls, rfl⟩
  unfold codeChain
  have key : ∀ (e : Expr) (a : RV), e.toR.denote (ieeeInterp (fmtOf b32) calls) env = a →
      (xs.foldl (fun acc t => Expr.methodCall acc "mul_add" [v, t]) e).toR.denote (ieeeInterp (fmtOf b32) calls) env =
        cs.foldl (fun acc c => methIE (fmtOf b32) "mul_add" acc [.f U', .f (h.coeff c)]) a := by
    induction h2 with
    | nil => intro e a he; exact he
    | cons h3 _ ih =>
      intro e a he
      rw [List.foldl_cons, List.foldl_cons]
      refine ih _ _ ?_
      simp only [Expr.toR, Expr.toRArgs, RExpr.denote, RExpr.denoteArgs, he, hU, h3 _ hI env]
      rfl
  refine key _ _ ?_
  simp only [Expr.toR, RExpr.denote]; exact h1 _ hI env

/-! ## Anything that is a float -/

/-- A finite float, an infinity or a NaN. -/
inductive RV.IsFloat : RV → Prop
  | f (x : ℝ) : RV.IsFloat (.f x)
  | inf (s : Bool) : RV.IsFloat (.inf s)
  | nan : RV.IsFloat .nan

theorem FloatFmt.rne_isFloat {F : FloatFmt} (x : ℝ) : (F.rne x).IsFloat := by unfold rne; split <;> constructor

theorem addIE_isFloat {F : FloatFmt} {a b : RV} (ha : a.IsFloat) (hb : b.IsFloat) : (binIE F .add a b).IsFloat := by
  cases ha <;> cases hb <;> simp only [binIE, addIE] <;> first | exact FloatFmt.rne_isFloat _ | (split <;> constructor) | constructor

theorem negIE_isFloat {a : RV} (ha : a.IsFloat) : (unRV .neg a).IsFloat := by cases ha <;> constructor

theorem subIE_isFloat {F : FloatFmt} {a b : RV} (ha : a.IsFloat) (hb : b.IsFloat) : (binIE F .sub a b).IsFloat := by
  cases ha <;> cases hb <;> simp only [binIE, unRV, addIE] <;> first | exact FloatFmt.rne_isFloat _ | (split <;> constructor) | constructor

theorem mulIE_isFloat {F : FloatFmt} {a b : RV} (ha : a.IsFloat) (hb : b.IsFloat) : (binIE F .mul a b).IsFloat := by
  cases ha <;> cases hb <;> simp only [binIE, mulIE] <;> first | exact FloatFmt.rne_isFloat _ | (split <;> constructor) | constructor

theorem mul_addIE_isFloat {F : FloatFmt} {a b c : RV} (ha : a.IsFloat) (hb : b.IsFloat) (hc : c.IsFloat) : (methIE F "mul_add" a [b, c]).IsFloat := by
  have k1 : ∀ a b : RV, a.IsFloat → b.IsFloat → addIE F a b = binIE F .add a b := fun a b ha hb => by cases ha <;> cases hb <;> rfl
  have k2 : ∀ a b : RV, a.IsFloat → b.IsFloat → mulIE F a b = binIE F .mul a b := fun a b ha hb => by cases ha <;> cases hb <;> rfl
  have h1 : (addIE F (mulIE F a b) c).IsFloat := by
    rw [k2 a b ha hb, k1 _ _ (mulIE_isFloat ha hb) hc]
    exact addIE_isFloat (mulIE_isFloat ha hb) hc
  cases ha with
  | f x =>
    cases hb with
    | f y => cases hc with
      | f z => exact FloatFmt.rne_isFloat _
      | inf s => exact .inf _
      | nan => exact h1
    | inf s => exact h1
    | nan => exact h1
  | inf s => exact h1
  | nan => exact h1

/-- The expression `p` in the variable `var` keeps NaN and gives no finite number at an infinity. -/
structure SpecialIE (I : RInterp RV) (var : String) (p : RExpr) : Prop where
  nan : ∀ env : Name → RV, env [var] = .nan → p.denote I env = .nan
  inf : ∀ (env : Name → RV) (s : Bool), env [var] = .inf s → p.denote I env = .nan ∨ ∃ t, p.denote I env = .inf t
  float : ∀ env : Name → RV, (env [var]).IsFloat → (p.denote I env).IsFloat

/-- The expression approximates `f` on `s`, keeps NaN and gives no finite number at an infinity. -/
def ApproxIE (I : RInterp RV) (var : String) (p : RExpr) (f : ℝ → ℝ) (s : Set ℝ) (ε : ℝ) : Prop := Approximates I var p f s ε ∧ SpecialIE I var p

theorem ApproxIE.mono {I : RInterp RV} {var : String} {p : RExpr} {f : ℝ → ℝ} {s t : Set ℝ} {ε δ : ℝ} (h : ApproxIE I var p f s ε) (hst : t ⊆ s) (hε : ε ≤ δ) :
    ApproxIE I var p f t δ := by
  obtain ⟨⟨P, h1, h2⟩, h3⟩ := h
  exact ⟨⟨P, fun env x hx hm => h1 env x hx (hst hm), fun x hx => (h2 x (hst hx)).trans hε⟩, h3⟩

/-- The code of a polynomial of positive degree at NaN and the infinities. -/
theorem code_special {h : IeeeOk fx b32 u w} {calls : String → List RV → RV} {s : String} {sq od : Bool} {xt : Expr} {xs : List Expr} {hi : Dec} {cs : List Dec}
    (h1 : h.Means xt hi) (h2 : List.Forall₂ h.Means xs cs) (hlen : 1 ≤ xs.length ∨ od = true) :
    SpecialIE (ieeeInterp (fmtOf b32) calls) s
      (if od then .binary (codeChain (chainArg s sq) xt xs) .mul (.path [s]) else codeChain (chainArg s sq) xt xs : Expr).toR := by
  have hI : ieeeInterp (fmtOf b32) calls ∈ ieeeInterps b32 := ⟨calls, rfl⟩
  have hbase : ∀ env, (Expr.paren xt).toR.denote (ieeeInterp (fmtOf b32) calls) env = .f (h.coeff hi) := by
    intro env
    simp only [Expr.toR, RExpr.denote]; exact h1 _ hI env
  have key : ∀ (env : Name → RV) (Q : RV → Prop), (∀ q c, Q (methIE (fmtOf b32) "mul_add" (.f q) [(chainArg s sq).toR.denote (ieeeInterp (fmtOf b32) calls) env, .f c])) →
      (∀ v c, Q v → Q (methIE (fmtOf b32) "mul_add" v [(chainArg s sq).toR.denote (ieeeInterp (fmtOf b32) calls) env, .f c])) →
      1 ≤ xs.length → Q ((codeChain (chainArg s sq) xt xs).toR.denote (ieeeInterp (fmtOf b32) calls) env) := by
    intro env Q hq1 hq2 hl
    have step : ∀ e : Expr, Q (e.toR.denote (ieeeInterp (fmtOf b32) calls) env) → ∀ ys ds, List.Forall₂ h.Means ys ds →
        Q ((ys.foldl (fun acc t => Expr.methodCall acc "mul_add" [chainArg s sq, t]) e).toR.denote (ieeeInterp (fmtOf b32) calls) env) := by
      intro e he ys ds hyd
      induction hyd generalizing e with
      | nil => exact he
      | @cons y d _ _ h3 _ ih =>
        rw [List.foldl_cons]
        refine ih _ ?_
        have := hq2 _ (h.coeff d) he
        rw [← h3 _ hI env] at this
        exact this
    unfold codeChain
    cases h2 with
    | nil => simp at hl
    | @cons y d _ _ h3 h4 =>
      rw [List.foldl_cons]
      refine step _ ?_ _ _ h4
      have := hq1 (h.coeff hi) (h.coeff d)
      rw [← h3 _ hI env, ← hbase env] at this
      exact this
  have hfin : ∀ env, xs = [] → (codeChain (chainArg s sq) xt xs).toR.denote (ieeeInterp (fmtOf b32) calls) env = .f (h.coeff hi) := by
    rintro env rfl
    exact hbase env
  constructor
  · intro env hx
    have hv : (chainArg s sq).toR.denote (ieeeInterp (fmtOf b32) calls) env = .nan := by
      cases sq
      · exact hx
      · simp only [chainArg, if_true, Expr.toR, RExpr.denote, hx]; rfl
    have hc : 1 ≤ xs.length → (codeChain (chainArg s sq) xt xs).toR.denote (ieeeInterp (fmtOf b32) calls) env = .nan := fun hl =>
      key env (· = .nan) (fun q c => by rw [hv]; rfl) (fun v c hq => by rw [hv, hq]; rfl) hl
    cases od
    · simp only [if_false, Bool.false_eq_true]
      exact hc (by simpa using hlen)
    · simp only [if_true, Expr.toR, RExpr.denote, hx]
      rcases xs with _ | ⟨y, ys⟩
      · rw [hfin env rfl]; rfl
      · rw [hc (by simp)]; rfl
  · intro env i hx
    have hv : ∃ j, (chainArg s sq).toR.denote (ieeeInterp (fmtOf b32) calls) env = .inf j := by
      cases sq
      · exact ⟨i, hx⟩
      · simp only [chainArg, if_true, Expr.toR, RExpr.denote, hx]; exact ⟨_, rfl⟩
    obtain ⟨j, hv⟩ := hv
    have hmul : ∀ q : ℝ, mulIE (fmtOf b32) (.f q) (.inf j) = .nan ∨ ∃ t, mulIE (fmtOf b32) (.f q) (.inf j) = .inf t := by
      intro q
      simp only [mulIE]
      split_ifs
      · exact .inl rfl
      · exact .inr ⟨_, rfl⟩
    have hc : 1 ≤ xs.length → ((codeChain (chainArg s sq) xt xs).toR.denote (ieeeInterp (fmtOf b32) calls) env = .nan ∨
        ∃ t, (codeChain (chainArg s sq) xt xs).toR.denote (ieeeInterp (fmtOf b32) calls) env = .inf t) := fun hl =>
      key env (fun v => v = .nan ∨ ∃ t, v = .inf t) (fun q c => by
        rw [hv]
        show addIE _ (mulIE _ (.f q) (.inf j)) (.f c) = _ ∨ ∃ t, addIE _ (mulIE _ (.f q) (.inf j)) (.f c) = _
        rcases hmul q with hm | ⟨t, hm⟩ <;> rw [hm]
        · exact .inl rfl
        · exact .inr ⟨_, rfl⟩) (fun v c hq => by
        rw [hv]
        rcases hq with rfl | ⟨t, rfl⟩
        · exact .inl rfl
        · exact .inr ⟨_, rfl⟩) hl
    cases od
    · simp only [if_false, Bool.false_eq_true]
      exact hc (by simpa using hlen)
    · simp only [if_true, Expr.toR, RExpr.denote, hx]
      rcases xs with _ | ⟨y, ys⟩
      · rw [hfin env rfl]
        show mulIE (fmtOf b32) (.f (h.coeff hi)) (.inf i) = _ ∨ ∃ t, mulIE (fmtOf b32) (.f (h.coeff hi)) (.inf i) = _
        simp only [mulIE]
        split_ifs
        · exact .inl rfl
        · exact .inr ⟨_, rfl⟩
      · rcases hc (by simp) with hm | ⟨t, hm⟩ <;> rw [hm]
        · exact .inl rfl
        · exact .inr ⟨_, rfl⟩
  · intro env hx
    have hv : ((chainArg s sq).toR.denote (ieeeInterp (fmtOf b32) calls) env).IsFloat := by
      cases sq
      · exact hx
      · simp only [chainArg, if_true, Expr.toR, RExpr.denote]; exact mulIE_isFloat hx hx
    have hc : ((codeChain (chainArg s sq) xt xs).toR.denote (ieeeInterp (fmtOf b32) calls) env).IsFloat := by
      rcases xs with _ | ⟨y, ys⟩
      · rw [hfin env rfl]; constructor
      · exact key env RV.IsFloat (fun q c => mul_addIE_isFloat (.f _) hv (.f _)) (fun v c hq => mul_addIE_isFloat hq hv (.f _)) (by simp)
    cases od
    · exact hc
    · simp only [if_true, Expr.toR, RExpr.denote]
      exact mulIE_isFloat hc hx

/-- **The polynomial in the code, run in float arithmetic**: the result is within `((1 + ε)^N - 1) T` of the polynomial with the same coefficients, where
`T` bounds the sum of the absolute values of the terms a little outside of the interval. -/
theorem LitOk.code_ieee (h : IeeeOk fx b32 u w) (terms : List Dec) (s : String) (parity : Parity) (N : ℕ) (hlen : terms.length = N + 1) (hp : parity.accepts (N + 1))
    (hd : ∀ i < terms.length, parity.keeps i → |(valAt terms i : ℝ)| ≤ 10 ^ 30) {W t T : ℝ} (hW : 0 < W) (hW1 : W ≤ 1) (ht : W * W + (fmtOf b32).tiny ≤ t * t) (ht0 : 0 ≤ t)
    (hT : ∑ i ∈ Finset.range (N + 1), (if parity.keeps i then (|h.coeff (terms.getD i default)| + (fmtOf b32).tiny) * t ^ i else 0) + (fmtOf b32).tiny ≤ T)
    (hfin : (1 + (fmtOf b32).eps) ^ N * T ≤ 2 ^ (fmtOf b32).bias * W ^ (N + 1)) :
    ∃ r e, mulAddPolynomial terms [s] parity = .ok r ∧ useNumberType fx r "decimal" (widthOf b32) = .ok e ∧
      (1 ≤ N → ∀ calls, SpecialIE (ieeeInterp (fmtOf b32) calls) s e.toR) ∧
      ∃ P : ℝ → ℝ, ∀ x : ℝ, |x| ≤ W → (∀ calls env, env [s] = .f x → e.toR.denote (ieeeInterp (fmtOf b32) calls) env = .f (P x)) ∧
        |P x - ∑ i ∈ Finset.range (N + 1), (if parity.keeps i then h.coeff (terms.getD i default) * x ^ i else 0)| ≤ ((1 + (fmtOf b32).eps) ^ N - 1) * T := by
  obtain ⟨sq, od, hi, cs, xt, xs, r, hr, he, hcs, m1, m2, hval⟩ := h.code_shape terms s parity (by omega) (by rw [hlen]; exact hp) hd
  set F := fmtOf b32 with hF
  have hOk : F.Ok := fmtOf_ok b32
  have hε := FloatFmt.eps_pos (F := F)
  have hσ := FloatFmt.tiny_pos (F := F)
  have hθ : 1 ≤ 1 + F.eps := by linarith
  have hWt : W ≤ t := by by_contra hc; push Not at hc; nlinarith
  have htpos : 0 < t := hW.trans_le hWt
  set V : ℝ := if sq then t * t else t with hV
  set U : ℝ → ℝ := fun x => if sq then x * x else x with hU
  set U' : ℝ → ℝ := fun x => if sq then F.rnd (x * x) else x with hU'
  set e : ℕ := if sq then 1 else 0 with hee
  set Am : ℝ := cs.foldl (fun acc c => acc * V + (|h.coeff c| + F.tiny)) (|h.coeff hi| + F.tiny) with hAm
  have hV0 : 0 < V := by rw [hV]; split_ifs <;> positivity
  have hmaj : Am * (if od then t else 1) + F.tiny ≤ T := by
    refine le_trans (le_of_eq ?_) hT
    have := hval (fun d => |h.round d| + F.tiny) t
    rw [hlen] at this
    rw [← show _ = Am * (if od then t else 1) from rfl]
    exact congrArg (· + F.tiny) this
  have hAm0 : 0 ≤ Am := (FloatFmt.maj_ge (F := F) h.coeff hV0.le (by positivity) cs).1
  have hel : cs.length * (e + 1) + (if od then 1 else 0) = N := by
    rw [hlen] at hcs
    have : (if sq then 2 else 1) = e + 1 := by rw [hee]; cases sq <;> rfl
    rw [this] at hcs; omega
  have hvV : W ^ (e + 1) ≤ V := by
    rw [hV, hee]; cases sq
    · simpa using hWt
    · simp only [if_true]; show W ^ 2 ≤ t * t; nlinarith
  have hVW : W ^ N ≤ (W ^ (e + 1)) ^ cs.length := by
    calc W ^ N ≤ W ^ (cs.length * (e + 1)) := pow_le_pow_of_le_one hW.le hW1 (by omega)
      _ = (W ^ (e + 1)) ^ cs.length := by rw [mul_comm, pow_mul]
  have hK0 : (0 : ℝ) < (1 + F.eps) ^ N := by positivity
  have hfin' : (1 + F.eps) ^ N * Am ≤ 2 ^ F.bias * (W ^ (e + 1)) ^ cs.length := by
    have hb : W ≤ (if od then t else 1) := by split_ifs <;> assumption
    have h1 : ((1 + F.eps) ^ N * Am) * W ≤ (2 ^ F.bias * W ^ N) * W := by
      calc ((1 + F.eps) ^ N * Am) * W = (1 + F.eps) ^ N * (Am * W) := by ring
        _ ≤ (1 + F.eps) ^ N * T := mul_le_mul_of_nonneg_left (by
            have := mul_le_mul_of_nonneg_left hb hAm0
            linarith) hK0.le
        _ ≤ _ := hfin
        _ = _ := by ring
    exact (le_of_mul_le_mul_right h1 hW).trans (mul_le_mul_of_nonneg_left hVW (by positivity))
  have key : ∀ x : ℝ, |x| ≤ W → |U' x - U x| ≤ ((1 + F.eps) ^ e - 1) * V ∧ |U x| ≤ V := by
    intro x hx
    have hxx : |x * x| ≤ W * W := by rw [abs_mul]; exact mul_le_mul hx hx (abs_nonneg _) hW.le
    simp only [hU, hU', hV, hee]
    cases sq
    · simpa using hx.trans hWt
    · simp only [if_true]
      refine ⟨?_, by linarith⟩
      refine (FloatFmt.rnd_err _).trans ?_
      rw [pow_one, add_sub_cancel_left]
      exact mul_le_mul_of_nonneg_left (by linarith) hε.le
  have hstart : |h.coeff hi - h.coeff hi| ≤ ((1 + F.eps) ^ 0 - 1) * (|h.coeff hi| + F.tiny) := by simp
  have hch := fun x hx => FloatFmt.chain_err (F := F) h.coeff (key x hx).1 (key x hx).2 (pow_pos hW _) hvV (pow_le_one₀ hW.le hW1) cs hstart (by linarith) le_rfl (by omega) hfin'
  refine ⟨r, _, hr, he, fun hN calls => code_special m1 m2 (by
    cases od
    · refine .inl ?_
      simp only [if_false, Bool.false_eq_true, add_zero] at hel
      rw [m2.length_eq]
      by_contra hc
      rw [show cs.length = 0 by omega] at hel
      omega
    · exact .inr rfl), fun x => if od then F.rnd (F.chainIE h.coeff (U' x) (h.coeff hi) cs * x) else F.chainIE h.coeff (U' x) (h.coeff hi) cs, fun x hx => ?_⟩
  obtain ⟨c1, c2, c3⟩ := hch x hx
  rw [zero_add] at c1
  have hbias : (1 : ℝ) ≤ 2 ^ F.bias := one_le_pow₀ (by norm_num)
  have hsum := hval h.round x
  rw [hlen] at hsum
  change chainVal h.coeff sq od hi cs x = ∑ i ∈ Finset.range (N + 1), (if parity.keeps i then h.coeff (terms.getD i default) * x ^ i else 0) at hsum
  rw [← hsum]
  unfold chainVal
  rw [show (if sq = true then x * x else x) = U x from rfl]
  have hchain : ∀ calls env, env [s] = .f x → (codeChain (chainArg s sq) xt xs).toR.denote (ieeeInterp F calls) env = .f (F.chainIE h.coeff (U' x) (h.coeff hi) cs) := by
    intro calls env henv
    have hUv : (chainArg s sq).toR.denote (ieeeInterp F calls) env = .f (U' x) := by
      simp only [hU', chainArg]
      cases sq
      · simp [Expr.toR, RExpr.denote, henv]
      · simp only [if_true, Expr.toR, RExpr.denote, henv, ieee_bin, binIE_mul]
        refine FloatFmt.rne_f hOk ?_
        have : |x| ≤ 1 := hx.trans hW1
        rw [abs_mul]
        nlinarith [abs_nonneg x]
    rw [codeChain_ieee m1 m2 hUv]
    exact c3 _ fun c y hy => by rw [methIE_mul_add]; exact FloatFmt.rne_f hOk hy
  cases od
  · simp only [if_false, Bool.false_eq_true, mul_one]
    simp only [if_false, Bool.false_eq_true, mul_one, add_zero] at hmaj hel
    refine ⟨hchain, c1.trans ?_⟩
    rw [hel]
    exact mul_le_mul_of_nonneg_left (by linarith) (by linarith [one_le_pow₀ hθ (n := N)])
  · simp only [if_true]
    simp only [if_true] at hmaj hel
    obtain ⟨f1, f2, f3⟩ := FloatFmt.mul_add_err (F := F) (U' := x) (U := x) (V := t) (q := 0) (e := 0) c1 c2 (by simp) (hx.trans hWt)
    simp only [add_zero, abs_zero, zero_add] at f1 f2 f3
    refine ⟨fun calls env henv => ?_, f1.trans ?_⟩
    · simp only [Expr.toR, RExpr.denote, hchain calls env henv, henv, ieee_bin, binIE_mul]
      refine FloatFmt.rne_f hOk (f3.trans ?_)
      calc (1 + F.eps) ^ (cs.length * (e + 1)) * (Am * t + F.tiny) ≤ (1 + F.eps) ^ N * T :=
            mul_le_mul (pow_le_pow_right₀ hθ (by omega)) hmaj (by positivity) hK0.le
        _ ≤ 2 ^ F.bias * W ^ (N + 1) := hfin
        _ ≤ 2 ^ F.bias := mul_le_of_le_one_right (by positivity) (pow_le_one₀ hW.le hW1)
    · rw [hel]
      exact mul_le_mul_of_nonneg_left hmaj (by linarith [one_le_pow₀ hθ (n := N)])
end
end Verif

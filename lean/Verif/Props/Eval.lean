import Verif.Lemmas.Eval
import Verif.Props.Rounding
import Verif.Spec.LitValue

/-! # C03-C09, C22: numbers in expressions and `eval` -/

namespace Verif

/-! ## C03 -/

/-- **C03** Turning a number into an expression and back succeeds and keeps the value; with a non-negative scale it
keeps the digits. -/
theorem C03_number_round_trip (d : Dec) :
    ∃ d', exprToDec (exprOfDec d) = .ok d' ∧ d'.val = d.val ∧ (0 ≤ d.scale → d' = d) := by
  refine ⟨canon d, exprToDec_exprOfDec d, val_canon d, ?_⟩
  intro h; simp [canon, h]

/-- **C03** The expression made is a numeric literal. -/
theorem C03_expression_is_numeric (d : Dec) : isNumeric (exprOfDec d) = true ∧ isLit (exprOfDec d) = true := ⟨rfl, rfl⟩

example : exprOfDec ⟨-120, 3⟩ = .lit (.float "-0.120".toList "") ∧ exprToDec (exprOfDec ⟨-120, 3⟩) = .ok ⟨-120, 3⟩ := by
  constructor <;> rfl
example : exprOfDec ⟨12, -3⟩ = .lit (.float "12000".toList "") := rfl

/-! ## C04, C05 -/

/-- The exact rational value of an expression of numeric literals with `+`, `-`, unary `-`, and parentheses. -/
def sumValue : Expr → Option ℚ
  | .lit l => litValue l
  | .paren e => sumValue e
  | .unary .neg e => (sumValue e).map fun q => -q
  | .binary l .add r => do pure ((← sumValue l) + (← sumValue r))
  | .binary l .sub r => do pure ((← sumValue l) - (← sumValue r))
  | _ => none

theorem litValue_exprToDec (l : Lit) (q : ℚ) (h : litValue l = some q) :
    ∃ d, exprToDec (.lit l) = .ok d ∧ d.val = q := by
  cases l with
  | int ds s =>
    simp only [litValue, Option.map_eq_some_iff] at h
    obtain ⟨d, hd, hv⟩ := h
    exact ⟨d, by simp [exprToDec, hd, Res.okOr], hv⟩
  | float ds s =>
    simp only [litValue, Option.map_eq_some_iff] at h
    obtain ⟨d, hd, hv⟩ := h
    exact ⟨d, by simp [exprToDec, hd, Res.okOr], hv⟩
  | bool b => cases h
  | other t => cases h

/-- **C04** `eval` of sums, differences, negations and parentheses of literals succeeds with exactly the rational
value, for every digit count. -/
theorem C04_eval_sum_exact (ext : BdExt) (n : Int) : ∀ (e : Expr) (q : ℚ), sumValue e = some q →
    ∃ e' d, eval ext n e = .ok e' ∧ isLit e' = true ∧ exprToDec e' = .ok d ∧ d.val = q := by
  apply Expr.ind
  · intro op e ih q h
    cases op with
    | neg =>
      simp only [sumValue, Option.map_eq_some_iff] at h
      obtain ⟨p, hp, rfl⟩ := h
      obtain ⟨e', d, h1, _, h2, h3⟩ := ih p hp
      exact ⟨_, _, eval_neg h1 h2, rfl, exprToDec_exprOfDec _, by rw [val_canon, Dec.val_neg, h3]⟩
    | _ => cases h
  · intro l op r ihl ihr q h
    by_cases h1 : op = .add
    · subst h1
      simp only [sumValue, Option.bind_eq_bind, Option.bind_eq_some_iff] at h
      obtain ⟨a, ha, b, hb, h⟩ := h
      cases h
      obtain ⟨l', dl, hl1, _, hl2, hl3⟩ := ihl a ha
      obtain ⟨r', dr, hr1, _, hr2, hr3⟩ := ihr b hb
      refine ⟨_, _, by rw [eval_binary hl1 hr1 hl2 hr2]; rfl, rfl, exprToDec_exprOfDec _, ?_⟩
      rw [val_canon, Dec.val_add, hl3, hr3]
    by_cases h2 : op = .sub
    · subst h2
      simp only [sumValue, Option.bind_eq_bind, Option.bind_eq_some_iff] at h
      obtain ⟨a, ha, b, hb, h⟩ := h
      cases h
      obtain ⟨l', dl, hl1, _, hl2, hl3⟩ := ihl a ha
      obtain ⟨r', dr, hr1, _, hr2, hr3⟩ := ihr b hb
      refine ⟨_, _, by rw [eval_binary hl1 hr1 hl2 hr2]; rfl, rfl, exprToDec_exprOfDec _, ?_⟩
      rw [val_canon, Dec.val_sub, hl3, hr3]
    · cases op <;> first | exact absurd rfl h1 | exact absurd rfl h2 | cases h
  · intro r m args _ _ q h; cases h
  · intro e ih q h
    obtain ⟨e', d, h1, h2⟩ := ih q h
    exact ⟨e', d, by rw [eval]; exact h1, h2⟩
  · intro l q h
    obtain ⟨d, hd, hv⟩ := litValue_exprToDec l q h
    exact ⟨.lit l, d, by rw [eval]; rfl, rfl, hd, hv⟩
  · intro p q h; cases h
  · intro b m _ q h; cases h
  · intro f args _ _ q h; cases h
  · intro k q h; cases h

example : sumValue (.binary (.lit (.float "1.25".toList "")) .sub (.unary .neg (.paren (.lit (.int "3".toList ""))))) = some (17 / 4) := by
  have h1 : parseDec "1.25".toList = some ⟨125, 2⟩ := rfl
  have h2 : parseDec "3".toList = some ⟨3, 0⟩ := rfl
  simp only [sumValue, litValue, h1, h2]
  norm_num [Dec.val]

/-- Exact value, and a bound on the error of `eval` at `n` digits, for literals with `+ - *`, unary `-` and
parentheses: sums add the bounds, products propagate them and add half a unit of the last digit. -/
def valueBound (n : Int) : Expr → Option (ℚ × ℚ)
  | .lit l => (litValue l).map fun q => (q, 0)
  | .paren e => valueBound n e
  | .unary .neg e => (valueBound n e).map fun p => (-p.1, p.2)
  | .binary l .add r => do
    let a ← valueBound n l
    let b ← valueBound n r
    pure (a.1 + b.1, a.2 + b.2)
  | .binary l .sub r => do
    let a ← valueBound n l
    let b ← valueBound n r
    pure (a.1 - b.1, a.2 + b.2)
  | .binary l .mul r => do
    let a ← valueBound n l
    let b ← valueBound n r
    pure (a.1 * b.1, |a.1| * b.2 + |b.1| * a.2 + a.2 * b.2 + 1 / 2 * 10 ^ (-n))
  | _ => none

theorem abs_mul_sub_le (x y a b ea eb : ℚ) (hx : |x - a| ≤ ea) (hy : |y - b| ≤ eb) :
    |x * y - a * b| ≤ |a| * eb + |b| * ea + ea * eb := by
  have e : x * y - a * b = a * (y - b) + b * (x - a) + (x - a) * (y - b) := by ring
  have h0 : 0 ≤ ea := le_trans (abs_nonneg _) hx
  rw [e]
  calc |a * (y - b) + b * (x - a) + (x - a) * (y - b)|
      ≤ |a * (y - b)| + |b * (x - a)| + |(x - a) * (y - b)| := by
        refine le_trans (abs_add_le _ _) ?_
        gcongr
        exact abs_add_le _ _
    _ ≤ _ := by
        rw [abs_mul, abs_mul, abs_mul]
        gcongr

/-- **C05** For literals with `+ - *`, the evaluated value differs from the exact rational value by at most the
bound computed from the tree. -/
theorem C05_eval_error_bound (ext : BdExt) (n : Int) (hn : 0 ≤ n) : ∀ (e : Expr) (q b : ℚ), valueBound n e = some (q, b) →
    ∃ e' d, eval ext n e = .ok e' ∧ exprToDec e' = .ok d ∧ |d.val - q| ≤ b := by
  apply Expr.ind
  · intro op e ih q b h
    cases op with
    | neg =>
      simp only [valueBound, Option.map_eq_some_iff, Prod.mk.injEq] at h
      obtain ⟨p, hp, rfl, rfl⟩ := h
      obtain ⟨e', d, h1, h2, h3⟩ := ih p.1 p.2 hp
      refine ⟨_, _, eval_neg h1 h2, exprToDec_exprOfDec _, ?_⟩
      rw [val_canon, Dec.val_neg, ← abs_neg, neg_sub_neg, neg_sub]
      exact h3
    | _ => cases h
  · intro l op r ihl ihr q b h
    by_cases h1 : op = .add
    · subst h1
      simp only [valueBound, Option.bind_eq_bind, Option.bind_eq_some_iff] at h
      obtain ⟨x, hx, y, hy, h⟩ := h
      simp only [pure, Option.some.injEq, Prod.mk.injEq] at h
      obtain ⟨rfl, rfl⟩ := h
      obtain ⟨l', dl, hl1, hl2, hl3⟩ := ihl _ _ hx
      obtain ⟨r', dr, hr1, hr2, hr3⟩ := ihr _ _ hy
      refine ⟨_, _, by rw [eval_binary hl1 hr1 hl2 hr2]; rfl, exprToDec_exprOfDec _, ?_⟩
      rw [val_canon, Dec.val_add, show dl.val + dr.val - (x.1 + y.1) = (dl.val - x.1) + (dr.val - y.1) by ring]
      exact le_trans (abs_add_le _ _) (add_le_add hl3 hr3)
    by_cases h2 : op = .sub
    · subst h2
      simp only [valueBound, Option.bind_eq_bind, Option.bind_eq_some_iff] at h
      obtain ⟨x, hx, y, hy, h⟩ := h
      simp only [pure, Option.some.injEq, Prod.mk.injEq] at h
      obtain ⟨rfl, rfl⟩ := h
      obtain ⟨l', dl, hl1, hl2, hl3⟩ := ihl _ _ hx
      obtain ⟨r', dr, hr1, hr2, hr3⟩ := ihr _ _ hy
      refine ⟨_, _, by rw [eval_binary hl1 hr1 hl2 hr2]; rfl, exprToDec_exprOfDec _, ?_⟩
      rw [val_canon, Dec.val_sub, show dl.val - dr.val - (x.1 - y.1) = (dl.val - x.1) - (dr.val - y.1) by ring]
      exact le_trans (abs_sub _ _) (add_le_add hl3 hr3)
    by_cases h3 : op = .mul
    · subst h3
      simp only [valueBound, Option.bind_eq_bind, Option.bind_eq_some_iff] at h
      obtain ⟨x, hx, y, hy, h⟩ := h
      simp only [pure, Option.some.injEq, Prod.mk.injEq] at h
      obtain ⟨rfl, rfl⟩ := h
      obtain ⟨l', dl, hl1, hl2, hl3⟩ := ihl _ _ hx
      obtain ⟨r', dr, hr1, hr2, hr3⟩ := ihr _ _ hy
      refine ⟨_, _, by rw [eval_binary hl1 hr1 hl2 hr2]; rfl, exprToDec_exprOfDec _, ?_⟩
      have hr := round_err (x := dl * dr) hn
      rw [Dec.val_mul] at hr
      have hm := abs_mul_sub_le _ _ _ _ _ _ hl3 hr3
      rw [val_canon, show (round (dl * dr) n).val - x.1 * y.1 =
        (dl.val * dr.val - x.1 * y.1) + ((round (dl * dr) n).val - dl.val * dr.val) by ring]
      exact le_trans (abs_add_le _ _) (add_le_add hm hr)
    · cases op <;> first | exact absurd rfl h1 | exact absurd rfl h2 | exact absurd rfl h3 | cases h
  · intro r m args _ _ q b h; cases h
  · intro e ih q b h
    obtain ⟨e', d, h1, h2⟩ := ih q b h
    exact ⟨e', d, by rw [eval]; exact h1, h2⟩
  · intro l q b h
    simp only [valueBound, Option.map_eq_some_iff, Prod.mk.injEq] at h
    obtain ⟨p, hp, rfl, rfl⟩ := h
    obtain ⟨d, hd, hv⟩ := litValue_exprToDec l p hp
    exact ⟨.lit l, d, by rw [eval]; rfl, hd, by rw [hv]; simp⟩
  · intro p q b h; cases h
  · intro b m _ q b' h; cases h
  · intro f args _ _ q b h; cases h
  · intro k q b h; cases h

/-- `r` is `p` rounded to the nearest multiple of `10^-n`, ties away from zero. -/
def IsRounded (n : Int) (p r : ℚ) : Prop :=
  (∃ k : Int, r = k * 10 ^ (-n)) ∧ (∀ k : Int, |p - r| ≤ |p - k * 10 ^ (-n)|) ∧
  (∀ k : Int, |p - k * 10 ^ (-n)| = |p - r| → |(k : ℚ) * 10 ^ (-n)| ≤ |r|)

/-- **C05** Each `*` returns the product of the evaluated operands, rounded to the nearest multiple of `10^-n`. -/
theorem C05_eval_mul (ext : BdExt) (n : Int) (hn : 0 ≤ n) (l r l' r' : Expr) (a b : Dec)
    (hl : eval ext n l = .ok l') (hr : eval ext n r = .ok r') (ha : exprToDec l' = .ok a) (hb : exprToDec r' = .ok b) :
    ∃ e' d, eval ext n (.binary l .mul r) = .ok e' ∧ exprToDec e' = .ok d ∧ IsRounded n (a.val * b.val) d.val := by
  refine ⟨_, _, by rw [eval_binary hl hr ha hb]; rfl, exprToDec_exprOfDec _, ?_⟩
  have h := C01_round_nearest_ties_away (a * b) n hn
  rw [val_canon]
  rw [Dec.val_mul] at h
  exact h.2

/-- **C05** Each `/` by a non-zero number returns, rounded to the nearest multiple of `10^-n`, a quotient that is
correct to a relative error of `½·10^-99`; dividing by zero panics. -/
theorem C05_eval_div (ext : BdExt) (n : Int) (hn : 0 ≤ n) (l r l' r' : Expr) (a b : Dec)
    (hl : eval ext n l = .ok l') (hr : eval ext n r = .ok r') (ha : exprToDec l' = .ok a) (hb : exprToDec r' = .ok b) :
    (b.val = 0 → eval ext n (.binary l .div r) = .panic) ∧
    (b.val ≠ 0 → ∃ e' d q, eval ext n (.binary l .div r) = .ok e' ∧ exprToDec e' = .ok d ∧ IsRounded n q d.val ∧
      |q - a.val / b.val| ≤ 1 / 2 * 10 ^ (-99 : Int) * |a.val / b.val|) := by
  have he := eval_binary (op := .div) hl hr ha hb
  constructor
  · intro h0
    rw [he, evalBinop, (Dec.div_spec a b).1 h0]; rfl
  · intro h0
    obtain ⟨q, hq, hq2⟩ := (Dec.div_spec a b).2 h0
    refine ⟨exprOfDec (round q n), canon (round q n), q.val, ?_, exprToDec_exprOfDec _, ?_, hq2⟩
    · rw [he, evalBinop, hq]; rfl
    · rw [val_canon]
      exact (C01_round_nearest_ties_away q n hn).2

example : valueBound 2 (.binary (.lit (.float "0.125".toList "")) .mul (.lit (.int "3".toList ""))) = some (3 / 8, 1 / 200) := by
  have h1 : parseDec "0.125".toList = some ⟨125, 3⟩ := rfl
  have h2 : parseDec "3".toList = some ⟨3, 0⟩ := rfl
  simp only [valueBound, litValue, h1, h2]
  norm_num [Dec.val]

/-! ## C06 -/

/-- The relation a comparison operator stands for. -/
def compares : BinOp → Option (ℚ → ℚ → Prop)
  | .lt => some (· < ·)
  | .gt => some (· > ·)
  | .le => some (· ≤ ·)
  | .ge => some (· ≥ ·)
  | .eq => some (· = ·)
  | .ne => some (· ≠ ·)
  | _ => none

/-- **C06** A comparison of operands that evaluate to numbers returns the literal `true` or `false` according to
the rational values. -/
theorem C06_eval_compare (ext : BdExt) (n : Int) (l r l' r' : Expr) (a b : Dec) (op : BinOp) (rel : ℚ → ℚ → Prop)
    (hop : compares op = some rel)
    (hl : eval ext n l = .ok l') (hr : eval ext n r = .ok r') (ha : exprToDec l' = .ok a) (hb : exprToDec r' = .ok b) :
    ∃ t : Bool, eval ext n (.binary l op r) = .ok (.lit (.bool t)) ∧ (t = true ↔ rel a.val b.val) := by
  rw [eval_binary hl hr ha hb]
  cases op <;> simp only [compares, Option.some.injEq, reduceCtorEq] at hop <;> subst hop <;>
    refine ⟨_, rfl, ?_⟩ <;> simp [← Bool.not_eq_true]

/-- **C06** The answer does not depend on how the numbers are written. -/
theorem C06_eval_compare_value_only (ext : BdExt) (n : Int) (l r l' r' l2 r2 l2' r2' : Expr) (a b a2 b2 : Dec) (op : BinOp)
    (rel : ℚ → ℚ → Prop) (hop : compares op = some rel)
    (hl : eval ext n l = .ok l') (hr : eval ext n r = .ok r') (ha : exprToDec l' = .ok a) (hb : exprToDec r' = .ok b)
    (hl2 : eval ext n l2 = .ok l2') (hr2 : eval ext n r2 = .ok r2') (ha2 : exprToDec l2' = .ok a2)
    (hb2 : exprToDec r2' = .ok b2) (hva : a.val = a2.val) (hvb : b.val = b2.val) :
    eval ext n (.binary l op r) = eval ext n (.binary l2 op r2) := by
  obtain ⟨t, h1, h2⟩ := C06_eval_compare ext n l r l' r' a b op rel hop hl hr ha hb
  obtain ⟨t2, h3, h4⟩ := C06_eval_compare ext n l2 r2 l2' r2' a2 b2 op rel hop hl2 hr2 ha2 hb2
  rw [h1, h3]
  rw [← hva, ← hvb] at h4
  have : t = t2 := by rw [Bool.eq_iff_iff, h2, h4]
  rw [this]

/-- An external environment for examples: no square roots, no floats. -/
def exampleBdExt : BdExt where
  sqrt := fun _ => none
  inverse := id
  toF32 := fun _ => none
  fromF32 := fun _ => none
  toF64 := fun _ => none
  fromF64 := fun _ => none
  fuel := 10

example : eval exampleBdExt 5 (.binary (.lit (.float "1.0".toList "")) .eq (.lit (.float "1.00".toList "f32"))) =
    .ok (.lit (.bool true)) := rfl
example : eval exampleBdExt 5 (.binary (.lit (.float "1e1".toList "")) .lt (.lit (.int "10".toList ""))) =
    .ok (.lit (.bool false)) := rfl

/-! ## C07 -/

/-- The methods `eval` knows, with their numbers of arguments. -/
def knownMethods : List (String × Nat) :=
  [("round", 0), ("abs", 0), ("signum", 0), ("recip", 0), ("powi", 1), ("powf", 1), ("sqrt", 0), ("exp", 0), ("exp2", 0),
   ("ln", 0), ("log", 1), ("log2", 0), ("log10", 0), ("sin", 0), ("cos", 0), ("tan", 0), ("asin", 0), ("acos", 0),
   ("atan", 0), ("erf", 0), ("erfc", 0), ("dnorm", 2), ("pnorm", 2), ("qnorm", 2), ("round_ieee", 1)]

/-- Arithmetic and comparison operators. -/
def knownBinops : List BinOp := [.add, .sub, .mul, .div, .lt, .gt, .le, .ge, .eq, .ne]

mutual
/-- Nothing in the expression is unknown to `eval`. -/
def evaluable : Expr → Prop
  | .unary op e => op = .neg ∧ evaluable e
  | .binary l op r => op ∈ knownBinops ∧ evaluable l ∧ evaluable r
  | .methodCall r m args => (m, args.length) ∈ knownMethods ∧ evaluable r ∧ evaluableArgs args
  | .paren e => evaluable e
  | .lit _ => True
  | .path p => p = ["PI"]
  | .field b _ => evaluable b
  | .call _ _ => False
  | .other _ => False

def evaluableArgs : List Expr → Prop
  | [] => True
  | a :: as => evaluable a ∧ evaluableArgs as
end

theorem evalMethod_known (ext : BdExt) (n : Int) (m : String) (x : Dec) (args : List Dec) (d : Dec)
    (h : evalMethod ext n m x args = .ok d) : (m, args.length) ∈ knownMethods := by
  unfold evalMethod at h
  split at h <;> first | (cases h; done) | simp [knownMethods]

theorem evalBinop_known (n : Int) (op : BinOp) (l r : Dec) (e : Expr) (h : evalBinop n op l r = .ok e) :
    op ∈ knownBinops := by
  cases op <;> first | (simp [knownBinops]; done) | cases h

theorem exprsToDecs_length : ∀ (l : List Expr) (ds : List Dec), exprsToDecs l = .ok ds → ds.length = l.length
  | [], ds, h => by cases h; rfl
  | a :: as, ds, h => by
    rw [exprsToDecs, Res.bind_eq_ok] at h
    obtain ⟨d, _, h⟩ := h
    rw [Res.bind_eq_ok] at h
    obtain ⟨ds', h2, h⟩ := h
    cases h
    simp [exprsToDecs_length as ds' h2]

theorem evalArgs_length (ext : BdExt) (n : Int) : ∀ (l l' : List Expr), evalArgs ext n l = .ok l' → l'.length = l.length
  | [], ds, h => by rw [evalArgs] at h; cases h; rfl
  | a :: as, l', h => by
    rw [evalArgs, Res.bind_eq_ok] at h
    obtain ⟨d, _, h⟩ := h
    rw [Res.bind_eq_ok] at h
    obtain ⟨ds', h2, h⟩ := h
    cases h
    simp [evalArgs_length ext n as ds' h2]

/-- **C07** `eval` never invents a value: success implies that every name is `PI`, every method is known with that
many arguments, every operator is known, and there is no unsupported node. -/
theorem C07_eval_only_known (ext : BdExt) (n : Int) : ∀ (e e' : Expr), eval ext n e = .ok e' → evaluable e := by
  apply Expr.ind
  · intro op e ih e' h
    rw [eval, Res.bind_eq_ok] at h
    obtain ⟨a, ha, h⟩ := h
    refine ⟨?_, ih a ha⟩
    split at h
    · rw [Res.bind_eq_ok] at h
      obtain ⟨d, _, h⟩ := h
      cases op <;> first | rfl | cases h
    · cases h
  · intro l op r ihl ihr e' h
    rw [eval, Res.bind_eq_ok] at h
    obtain ⟨a, ha, h⟩ := h
    rw [Res.bind_eq_ok] at h
    obtain ⟨b, hb, h⟩ := h
    refine ⟨?_, ihl a ha, ihr b hb⟩
    split at h
    · simp only [Res.bind_eq_ok] at h
      obtain ⟨x, _, y, _, h⟩ := h
      exact evalBinop_known n op x y e' h
    · cases h
  · intro r m args ihr iha e' h
    rw [eval] at h
    simp only [Res.bind_eq_ok] at h
    obtain ⟨a, ha, b, hb, x, hx, ds, hds, d, hd, h⟩ := h
    refine ⟨?_, ihr a ha, ?_⟩
    · have := evalMethod_known ext n m x ds d hd
      rwa [exprsToDecs_length b ds hds, evalArgs_length ext n args b hb] at this
    · clear h hd hds ihr
      induction args generalizing b with
      | nil => exact trivial
      | cons y ys ih =>
        rw [evalArgs] at hb
        simp only [Res.bind_eq_ok] at hb
        obtain ⟨y', hy, ys', hys, _⟩ := hb
        exact ⟨iha y (by simp) y' hy, ih (fun c hc => iha c (by simp [hc])) ys' hys⟩
  · intro e ih e' h; rw [eval] at h; exact ih e' h
  · intro l e' _; exact trivial
  · intro p e' h
    rw [eval] at h
    split at h
    · assumption
    · cases h
  · intro b m ih e' h
    rw [eval, Res.bind_eq_ok] at h
    obtain ⟨a, ha, _⟩ := h
    exact ih a ha
  · intro f args _ _ e' h; rw [eval] at h; cases h
  · intro k e' h; rw [eval] at h; cases h

/-- **C07** In particular an expression mentioning any name but `PI` does not evaluate. -/
theorem C07_eval_names (ext : BdExt) (n : Int) (e e' : Expr) (h : eval ext n e = .ok e') : ∀ p ∈ e.names, p = ["PI"] := by
  have key : ∀ e : Expr, evaluable e → ∀ p ∈ e.names, p = ["PI"] := by
    have args : ∀ l : List Expr, (∀ a ∈ l, evaluable a → ∀ p ∈ a.names, p = ["PI"]) → evaluableArgs l →
        ∀ p ∈ Expr.namesArgs l, p = ["PI"] := by
      intro l
      induction l with
      | nil => intro _ _ p hp; simp [Expr.namesArgs] at hp
      | cons a as ih =>
        intro ha hl p hp
        simp only [Expr.namesArgs, List.mem_append] at hp
        rcases hp with hp | hp
        · exact ha a (by simp) hl.1 p hp
        · exact ih (fun b hb => ha b (by simp [hb])) hl.2 p hp
    apply Expr.ind
    · intro op e ih h p hp; exact ih h.2 p hp
    · intro l op r ihl ihr h p hp
      simp only [Expr.names, List.mem_append] at hp
      rcases hp with hp | hp
      · exact ihl h.2.1 p hp
      · exact ihr h.2.2 p hp
    · intro r m as ihr iha h p hp
      simp only [Expr.names, List.mem_append] at hp
      rcases hp with hp | hp
      · exact ihr h.2.1 p hp
      · exact args as iha h.2.2 p hp
    · intro e ih h p hp; exact ih h p hp
    · intro l h p hp; simp [Expr.names] at hp
    · intro q h p hp
      simp only [Expr.names, List.mem_singleton] at hp
      rw [hp]; exact h
    · intro b m ih h p hp; exact ih h p hp
    · intro f as _ _ h p hp; exact absurd h (by simp [evaluable])
    · intro k h p hp; simp [Expr.names] at hp
  exact key e (C07_eval_only_known ext n e e' h)

example : eval exampleBdExt 3 (.binary (.path ["x"]) .add (.lit (.int "1".toList ""))) = .err .couldNotEvaluate := rfl
example : eval exampleBdExt 3 (.methodCall (.lit (.int "1".toList "")) "mul_add" [.lit (.int "1".toList ""), .lit (.int "1".toList "")]) =
    .err .couldNotEvaluate := rfl
set_option maxRecDepth 20000 in
example : eval exampleBdExt 3 (.path ["PI"]) = .ok (.lit (.float "3.142".toList "")) := rfl

/-! ## C08 -/

mutual
/-- No field access in the part of the expression that `eval` sees. -/
def noField : Expr → Bool
  | .unary _ e => noField e
  | .binary l _ r => noField l && noField r
  | .methodCall r _ args => noField r && noFieldArgs args
  | .paren e => noField e
  | .field _ _ => false
  | _ => true

def noFieldArgs : List Expr → Bool
  | [] => true
  | a :: as => noField a && noFieldArgs as
end

/-- **C08** The result of a successful `eval` of an expression without field access is a literal. -/
theorem C08_eval_literal (ext : BdExt) (n : Int) : ∀ (e e' : Expr), noField e = true → eval ext n e = .ok e' →
    isLit e' = true := by
  apply Expr.ind
  · intro op e ih e' _ h
    rw [eval, Res.bind_eq_ok] at h
    obtain ⟨a, ha, h⟩ := h
    split at h
    · rw [Res.bind_eq_ok] at h
      obtain ⟨d, _, h⟩ := h
      cases op <;> cases h
      rfl
    · cases h
  · intro l op r ihl ihr e' _ h
    rw [eval, Res.bind_eq_ok] at h
    obtain ⟨a, ha, h⟩ := h
    rw [Res.bind_eq_ok] at h
    obtain ⟨b, hb, h⟩ := h
    split at h
    · simp only [Res.bind_eq_ok] at h
      obtain ⟨x, _, y, _, h⟩ := h
      cases op <;> simp only [evalBinop, Res.pure_eq, Res.ok.injEq, reduceCtorEq, Res.bind_eq_ok] at h
      case div => obtain ⟨q, _, h⟩ := h; subst h; rfl
      all_goals (subst h; rfl)
    · cases h
  · intro r m args _ _ e' _ h
    rw [eval] at h
    simp only [Res.bind_eq_ok] at h
    obtain ⟨a, ha, b, hb, x, hx, ds, hds, d, hd, h⟩ := h
    cases h; rfl
  · intro e ih e' hf h; rw [eval] at h; exact ih e' (by simpa [noField] using hf) h
  · intro l e' _ h; rw [eval] at h; cases h; rfl
  · intro p e' _ h
    rw [eval] at h
    split at h
    · rw [Res.bind_eq_ok] at h
      obtain ⟨d, _, h⟩ := h
      cases h; rfl
    · cases h
  · intro b m _ e' hf h; simp [noField] at hf
  · intro f args _ _ e' _ h; rw [eval] at h; cases h
  · intro k e' _ h; rw [eval] at h; cases h

/-- **C08** Evaluating the result again, at any digit count, changes nothing. -/
theorem C08_eval_idempotent (ext : BdExt) (n m : Int) (e e' : Expr) (hf : noField e = true)
    (h : eval ext n e = .ok e') : eval ext m e' = .ok e' := by
  have := C08_eval_literal ext n e e' hf h
  cases e' <;> first | (cases this; done) | (rw [eval]; rfl)

/-- The restriction on field access is needed: `eval` of a field access succeeds without a literal. -/
theorem C08_field_not_literal : ∃ (e e' : Expr), eval exampleBdExt 3 e = .ok e' ∧ isLit e' = false :=
  ⟨.field (.lit (.int "1".toList "")) "x", _, rfl, rfl⟩

example : noField (.binary (.path ["PI"]) .mul (.lit (.int "2".toList ""))) = true := rfl

/-! ## C09 -/

/-- **C09** Two expressions that differ only in parentheses evaluate to the same result: same value, same error,
same panic. -/
theorem C09_eval_ignores_parens (ext : BdExt) (n : Int) (e f : Expr) (h : e.erase = f.erase) :
    eval ext n e = eval ext n f := by
  have key : ∀ e : Expr, eval ext n e.erase = eval ext n e := by
    have args : ∀ l : List Expr, (∀ a ∈ l, eval ext n a.erase = eval ext n a) →
        evalArgs ext n (Expr.eraseArgs l) = evalArgs ext n l := by
      intro l
      induction l with
      | nil => intros; rfl
      | cons a as ih =>
        intro ha
        rw [Expr.eraseArgs, evalArgs, evalArgs, ha a (by simp), ih (fun b hb => ha b (by simp [hb]))]
    apply Expr.ind
    · intro op e ih; rw [Expr.erase, eval, eval, ih]
    · intro l op r ihl ihr; rw [Expr.erase, eval, eval, ihl, ihr]
    · intro r m as ihr iha; rw [Expr.erase, eval, eval, ihr, args as iha]
    · intro e ih; rw [Expr.erase, eval, ih]
    · intro l; rfl
    · intro p; rfl
    · intro b m ih; rw [Expr.erase, eval, eval, ih]
    · intro f as _ _; rw [Expr.erase, eval, eval]
    · intro k; rfl
  rw [← key e, h, key f]

example : (Expr.binary (.paren (.lit (.int "2".toList ""))) .add (.paren (.paren (.path ["PI"])))).erase =
    (Expr.paren (.binary (.lit (.int "2".toList "")) .add (.path ["PI"]))).erase := rfl

/-! ## C22 -/

/-- What the operator is meant to be. -/
def ArithOp.binop : ArithOp → BinOp
  | .add => .add
  | .sub => .sub
  | .mul => .mul
  | .div => .div

/-- The rational operation. -/
def ArithOp.onRat : ArithOp → ℚ → ℚ → ℚ
  | .add, a, b => a + b
  | .sub, a, b => a - b
  | .mul, a, b => a * b
  | .div, a, b => a / b

/-- **C22** Two numeric literals are folded: exactly for `+ - *`, to a relative error of `½·10^-99` for `/`. -/
theorem C22_fold_numeric (op : ArithOp) (lhs rhs : Expr) (a b : Dec) (ha : exprToDec lhs = .ok a)
    (hb : exprToDec rhs = .ok b) (hdiv : op = .div → b.val ≠ 0) :
    ∃ e d, exprOp op lhs rhs = .ok e ∧ exprToDec e = .ok d ∧
      (op ≠ .div → d.val = op.onRat a.val b.val) ∧
      |d.val - op.onRat a.val b.val| ≤ 1 / 2 * 10 ^ (-99 : Int) * |op.onRat a.val b.val| := by
  have hex : ∀ r : Dec, op.onDec a b = .ok r → exprOp op lhs rhs = .ok (exprOfDec r) := by
    intro r hr
    unfold exprOp
    simp only [exprToDec_numeric ha, exprToDec_numeric hb, Bool.and_self, if_true, unwrap_ok ha, unwrap_ok hb,
      Res.ok_bind, hr]
    rfl
  have hexact : ∀ (r : Dec), op.onDec a b = .ok r → r.val = op.onRat a.val b.val →
      ∃ e d, exprOp op lhs rhs = .ok e ∧ exprToDec e = .ok d ∧
      (op ≠ .div → d.val = op.onRat a.val b.val) ∧
      |d.val - op.onRat a.val b.val| ≤ 1 / 2 * 10 ^ (-99 : Int) * |op.onRat a.val b.val| := by
    intro r hr hv
    refine ⟨_, _, hex r hr, exprToDec_exprOfDec _, ?_, ?_⟩
    · intro _; rw [val_canon, hv]
    · rw [val_canon, hv, sub_self, abs_zero]; positivity
  cases op with
  | add => exact hexact _ rfl (by simp [ArithOp.onRat])
  | sub => exact hexact _ rfl (by simp [ArithOp.onRat])
  | mul => exact hexact _ rfl (by simp [ArithOp.onRat])
  | div =>
    obtain ⟨q, hq, hq2⟩ := (Dec.div_spec a b).2 (hdiv rfl)
    refine ⟨_, _, hex q hq, exprToDec_exprOfDec _, fun h => absurd rfl h, ?_⟩
    rw [val_canon]; exact hq2

/-- **C22** (only `+`.)  With an operand that is not a numeric literal, `+` returns an expression meaning the sum of
the operands' meanings, whatever addition is.

Full claim: for each of `+ - * /` the result means that operation applied to the operands' meanings; false for the
other three, see `C22_symbolic_wrong`. -/
theorem C22_symbolic_add_partial {α : Type} (I : Interp α) (lhs rhs : Expr) (h : (isNumeric lhs && isNumeric rhs) = false) :
    ∃ e, exprOp .add lhs rhs = .ok e ∧ e.denote I = I.bin .add (lhs.denote I) (rhs.denote I) := by
  refine ⟨.binary (.paren lhs) .add (.paren rhs), by simp [exprOp, h], ?_⟩
  simp only [Expr.denote]

/-- **C22** is false for `- * /` on symbolic operands: each of them returns the sum. -/
theorem C22_symbolic_wrong (op : ArithOp) (lhs rhs : Expr) (h : (isNumeric lhs && isNumeric rhs) = false) :
    exprOp op lhs rhs = .ok (.binary (.paren lhs) .add (.paren rhs)) := by
  simp [exprOp, h]

/-- A concrete witness: `x - 1` comes out as `(x) + (1)`, whose value at `x = 7` is 8 and not 6. -/
theorem C22_symbolic_sub_witness : ∃ (I : Interp ℚ) (e : Expr),
    (∀ a b, I.bin .sub a b = a - b) ∧ (∀ a b, I.bin .add a b = a + b) ∧
    exprOp .sub (.path ["x"]) (.lit (.int "1".toList "")) = .ok e ∧
    e.denote I ≠ I.bin .sub ((Expr.path ["x"]).denote I) ((Expr.lit (.int "1".toList "")).denote I) := by
  refine ⟨{ un := fun _ a => a, bin := fun op a b => match op with | .add => a + b | .sub => a - b | _ => 0,
            meth := fun _ a _ => a, lit := fun _ => 1, var := fun _ => 7, field := fun _ a => a,
            call := fun a _ => a, other := fun _ => 0 }, _, fun _ _ => rfl, fun _ _ => rfl,
    C22_symbolic_wrong .sub _ _ rfl, ?_⟩
  norm_num [Expr.denote]

example : (isNumeric (.path ["x"]) && isNumeric (.lit (.int "1".toList ""))) = false := rfl

end Verif
